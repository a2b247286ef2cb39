import Verif.Text.AloneProps
import Verif.Text.ExtractionProps

/-!
# C111: theorems about a cluster written on its own
-/

namespace Verif.Text

open Verif.Py Verif.Parts

set_option linter.unusedSectionVars false

variable {K V E : Type}

/-- The same part, its function standing in the list `fs'` where it stood in `fs`. -/
structure SamePart (fs fs' : List (Owner K)) (p q : Part K) : Prop where
  pars : q.pars = p.pars
  free : q.free = p.free
  removable : q.removable = p.removable
  staticOwner : q.staticOwner = p.staticOwner
  isInt : q.isInt = p.isInt
  owner : ∃ i : ℕ, fs[i]? = some p.owner ∧ fs'[i]? = some q.owner

/-- The function `f` is at a place of `fs` where `o` is in `fs'`. -/
def SameFunc (fs fs' : List (Owner K)) (f : ℕ) (o : Owner K) : Prop := ∃ (i : ℕ) (x : Owner K), fs[i]? = some x ∧ x.id = f ∧ fs'[i]? = some o

/-- The functions of the peaks and the peak functions. -/
def functionsOf (c : Mc K) : List ℕ := c.model.map (fun p => p.owner.id) ++ c.funcs.getD []

/-- The function of the baseline. -/
def baselineFunctionOf (c : Mc K) : List ℕ := c.baseline.toList.map (fun p => p.owner.id)

theorem written_lists {P : Python K V} {fmt : K → List Char} {safe : List ℕ → List (Owner K)}
    {fnText : List (Owner K) → Owner K → Res FnText} {pfk blfk : Option (List (Owner K))} {c : Mc K} {text : List Char}
    (hw : mcWritestrKw P fmt safe fnText pfk blfk c = .ok text) :
    pfToWrite safe c pfk = .ok (pfk.getD (safe (functionsOf c))) ∧
    blfToWrite safe c blfk = .ok (blfk.getD (safe (baselineFunctionOf c))) := by
  unfold mcWritestrKw at hw
  constructor
  · cases pfk with
    | some l => rfl
    | none =>
      cases hf : c.funcs with
      | none => simp [pfToWrite, hf] at hw
      | some fs => simp [pfToWrite, hf, functionsOf]
  · cases hp : pfToWrite safe c pfk with
    | error e => rw [hp] at hw; cases hw
    | ok l =>
      rw [hp] at hw
      cases blfk with
      | some l => rfl
      | none =>
        cases hf : c.baseline with
        | none => simp [blfToWrite, hf] at hw
        | some b => simp [blfToWrite, hf, baselineFunctionOf]

theorem samePart_moved {P : Python K V} {call : FnRead V → List (Owner K) → Res (Owner K)}
    {fnText : List (Owner K) → Owner K → Res FnText} {given : Option (List (Owner K))} {fs fs' : List (Owner K)}
    (hb : Back P call fnText given fs fs') {p : Part K} {t : List Char} (hw : writestr P p fs = .ok t) (h : PartReadable P fs p) :
    SamePart fs fs' p (moved fs fs' p) := by
  unfold writestr at hw
  cases hi : ownerIndex fs p.owner.id with
  | none => rw [hi] at hw; cases hw
  | some i =>
    obtain ⟨o, o', ho, hid, h1, -, -, -⟩ := back_index hb hi
    have ho' : o = p.owner := h.own o (List.mem_of_getElem? ho) hid
    subst ho'
    obtain ⟨o'', e1, e2, -⟩ := moved_eq hb hi
    rw [h1] at e1
    cases e1
    rw [e2]
    exact ⟨rfl, rfl, rfl, rfl, rfl, i, ho, h1⟩

theorem sameFuncs_moved {P : Python K V} {call : FnRead V → List (Owner K) → Res (Owner K)}
    {fnText : List (Owner K) → Owner K → Res FnText} {given : Option (List (Owner K))} {fs fs' : List (Owner K)}
    (hb : Back P call fnText given fs fs') (hid : ∀ x ∈ fs, ∀ y ∈ fs, x.id = y.id → x = y) {ids is : List ℕ}
    (hi : funcIndices fs ids = .ok is) {os : List (Owner K)}
    (h1 : os.map Owner.id = ids.map (fun f => ((twin fs fs' f).map Owner.id).getD f)) (h2 : ∀ o ∈ os, o ∈ fs') :
    List.Forall₂ (SameFunc fs fs') ids os := by
  induction ids generalizing is os with
  | nil =>
    cases os with
    | nil => exact .nil
    | cons o os => cases h1
  | cons f ids ih =>
    cases os with
    | nil => cases h1
    | cons o os =>
      rw [List.map_cons, List.map_cons] at h1
      injection h1 with h1 h3
      rw [funcIndices] at hi
      split at hi
      · cases hi
      · rename_i i hf
        split at hi
        · cases hi
        · rename_i js hjs
          refine .cons ?_ (ih hjs h3 (fun x hx => h2 x (by simp [hx])))
          obtain ⟨x, o', ho, hx, e1, -, -, e4⟩ := back_index hb hf
          have e : ((twin fs fs' f).map Owner.id).getD f = o'.id := by
            unfold twin
            rw [hf, Option.bind_some, e1]
            rfl
          rw [e] at h1
          have := e4 (fun y hy hyid => hid y hy x (List.mem_of_getElem? ho) (by rw [hyid, hx])) o (h2 o (by simp)) h1
          subst this
          exact ⟨i, x, ho, hx, e1⟩

/-- **C111.** A cluster written without one or both of the lists of functions is read back, without the same lists, with the
same peaks, baseline, peak functions and slice, the data as they come back from `%g`, and the evaluator found under the name
written.  `pf` and `blf` are the lists written with, `pf'` and `blf'` what becomes of them when they are read. -/
theorem c111_roundtrip (P : Python K V) (call : FnRead V → List (Owner K) → Res (Owner K)) (indices : V → Res (List ℤ))
    (float : List Char → Option K) (fmt : K → List Char) (g : K → K) (safe : List ℕ → List (Owner K))
    (fnText : List (Owner K) → Owner K → Res FnText) (attr : List Char → Option E) (c : Mc K) (pfk blfk : Option (List (Owner K)))
    (pf blf pf' blf' : List (Owner K)) (slice : V) (e : E) (hpf : pf = pfk.getD (safe (functionsOf c)))
    (hblf : blf = blfk.getD (safe (baselineFunctionOf c))) (hid : ∀ x ∈ pf, ∀ y ∈ pf, x.id = y.id → x = y)
    (hb1 : Back P call fnText pfk pf pf') (hb2 : Back P call fnText blfk blf blf')
    (h : McReadable P indices float fmt g c pf blf slice) (hne : c.r ≠ []) (he : attr (c.method.getD "None".toList) = some e)
    (text : List Char) (hw : mcWritestrKw P fmt safe fnText pfk blfk c = .ok text) :
    ∃ m, mcFactoryKw P call indices float attr pfk blfk text = .ok m ∧ List.Forall₂ (SamePart pf pf') c.model m.model ∧
      Option.Rel (SamePart blf blf') c.baseline m.baseline ∧ Option.Rel (List.Forall₂ (SameFunc pf pf')) c.funcs m.funcs ∧
      m.r = some (c.r.map g) ∧ m.y = some (c.y.map g) ∧ m.err = some (c.err.map g) ∧ m.slice = slice ∧ m.method = e := by
  obtain ⟨w1, w2⟩ := written_lists hw
  rw [← hpf] at w1
  rw [← hblf] at w2
  obtain ⟨os, ⟨hos, hin⟩, hr⟩ := mcFactoryKw_lines h w1 w2 hb1 hb2 attr hw
  rw [he] at hr
  simp only at hr
  rw [if_neg hne] at hr
  obtain ⟨ft, bt, pt, bs, ps, hft, hbt, hpt, -, -, -⟩ := mcWritestrKw_lines h w1 w2 hw
  refine ⟨_, hr, ?_, ?_, ?_, rfl, rfl, rfl, rfl, rfl⟩
  · simp only
    rw [List.forall₂_map_right_iff, List.forall₂_same]
    intro p hp
    obtain ⟨t, ht⟩ := (moved_peaks hb1 hpt).2 p hp
    exact samePart_moved hb1 ht (h.peaks p hp)
  · simp only
    cases hb : c.baseline with
    | none => exact .none
    | some b =>
      rw [hb] at hbt
      exact .some (samePart_moved hb2 hbt (h.base b hb))
  · simp only
    unfold movedMc at hos
    simp only at hos
    cases hf : c.funcs with
    | none =>
      rw [hf] at hos
      cases os with
      | none => exact .none
      | some os => cases hos
    | some fs =>
      rw [hf] at hos hft
      cases os with
      | none => cases hos
      | some os =>
        unfold funcsText at hft
        simp only at hft
        cases hi : funcIndices pf fs with
        | error e => rw [hi] at hft; cases hft
        | ok is =>
          simp only [Option.map_some, Option.some.injEq] at hos
          exact .some (sameFuncs_moved hb1 hid hi hos (hin os rfl))

/-- **C111.** What shared a function when the cluster was written shares it when it is read without the list of functions,
and what did not does not: the peaks among themselves and with the peak functions. -/
theorem c111_shared {P : Python K V} {call : FnRead V → List (Owner K) → Res (Owner K)}
    {fnText : List (Owner K) → Owner K → Res FnText} {pf pf' : List (Owner K)} (hid : (pf.map Owner.id).Nodup)
    (hb : Rebuilds P call fnText pf pf') :
    (∀ p q p' q' : Part K, SamePart pf pf' p p' → SamePart pf pf' q q' → (p'.owner.id = q'.owner.id ↔ p.owner.id = q.owner.id)) ∧
    (∀ (p p' : Part K) (f : ℕ) (o : Owner K), SamePart pf pf' p p' → SameFunc pf pf' f o → (p'.owner.id = o.id ↔ p.owner.id = f)) := by
  have key : ∀ (i j : ℕ) (x y x' y' : Owner K), pf[i]? = some x → pf[j]? = some y → pf'[i]? = some x' → pf'[j]? = some y' →
      (x'.id = y'.id ↔ x.id = y.id) := by
    intro i j x y x' y' h1 h2 h3 h4
    constructor
    · intro h
      have e1 := ownerIndex_nodup hb.fresh h3
      have e2 := ownerIndex_nodup hb.fresh h4
      rw [h, e2] at e1
      cases e1
      rw [h1] at h2
      cases h2
      rfl
    · intro h
      have e1 := ownerIndex_nodup hid h1
      have e2 := ownerIndex_nodup hid h2
      rw [h, e2] at e1
      cases e1
      rw [h3] at h4
      cases h4
      rfl
  constructor
  · rintro p q p' q' ⟨-, -, -, -, -, i, h1, h2⟩ ⟨-, -, -, -, -, j, h3, h4⟩
    exact key i j _ _ _ _ h1 h3 h2 h4
  · rintro p p' f o ⟨-, -, -, -, -, i, h1, h2⟩ ⟨j, x, h3, rfl, h4⟩
    exact key i j _ _ _ _ h1 h3 h2 h4

/-- **C111.** A cluster is written without lists exactly if it has peak functions and a baseline, each function it uses can be
written with the list made of them, and there is a value and an uncertainty for each coordinate. -/
theorem c111_writable (P : Python K V) (fmt : K → List Char) (safe : List ℕ → List (Owner K))
    (fnText : List (Owner K) → Owner K → Res FnText) (c : Mc K) (hsafe : ∀ ids, ∀ i ∈ ids, Listed (safe ids) i) :
    (∃ text, mcWritestrKw P fmt safe fnText none none c = .ok text) ↔
      c.funcs ≠ none ∧ c.baseline ≠ none ∧ (∀ f ∈ safe (functionsOf c), ∃ t, fnText (safe (functionsOf c)) f = .ok t) ∧
      (∀ f ∈ safe (baselineFunctionOf c), ∃ t, fnText (safe (baselineFunctionOf c)) f = .ok t) ∧
      c.r.length ≤ c.y.length ∧ c.r.length ≤ c.err.length := by
  cases hf : c.funcs with
  | none => simp [mcWritestrKw, pfToWrite, hf]
  | some fs =>
    cases hbl : c.baseline with
    | none => simp [mcWritestrKw, pfToWrite, blfToWrite, hf, hbl]
    | some b =>
      have hids : c.model.map (fun p => p.owner.id) ++ fs = functionsOf c := by unfold functionsOf; rw [hf]; rfl
      have hbid : [b.owner.id] = baselineFunctionOf c := by unfold baselineFunctionOf; rw [hbl]; rfl
      obtain ⟨is, his⟩ : ∃ ft, funcsText (safe (functionsOf c)) (some fs) = .ok ft := by
        have := (funcIndices_ok (safe (functionsOf c)) fs).2 (fun f hfm => hsafe _ _ (by rw [← hids]; simp [hfm]))
        unfold funcsText
        simp only
        cases hi : funcIndices (safe (functionsOf c)) fs with
        | error e => rw [hi] at this; cases this
        | ok is => exact ⟨_, rfl⟩
      obtain ⟨bt, hbt⟩ : ∃ bt, baselineText P (safe (baselineFunctionOf c)) (some b) = .ok bt := by
        obtain ⟨i, hi⟩ := (ownerIndex_listed (safe (baselineFunctionOf c)) b.owner.id).1 (hsafe _ _ (by rw [← hbid]; simp))
        simp only [baselineText, writestr, hi]
        exact ⟨_, rfl⟩
      obtain ⟨pt, hpt⟩ : ∃ pt, peaksText P (safe (functionsOf c)) c.model = .ok pt := by
        have := (peaksText_ok P (safe (functionsOf c)) c.model).2 (fun p hp => hsafe _ _ (by
          rw [← hids]
          exact List.mem_append_left _ (List.mem_map.2 ⟨p, hp, rfl⟩)))
        cases hi : peaksText P (safe (functionsOf c)) c.model with
        | error e => rw [hi] at this; cases this
        | ok is => exact ⟨_, rfl⟩
      have hsec : ∀ (title label : List Char) (l : List (Owner K)),
          (fnSection fnText title label l none).isOk = true ↔ ∀ f ∈ l, ∃ t, fnText l f = .ok t := by
        intro title label l
        have gen : ∀ (i : ℕ) (os : List (Owner K)), (fnLines (fun l f => (fnText l f).map fnWritestr) label l i os).isOk = true ↔
            ∀ f ∈ os, ∃ t, fnText l f = .ok t := by
          intro i os
          induction os generalizing i with
          | nil => simp [fnLines, Except.isOk, Except.toBool]
          | cons o os ih =>
            rw [fnLines]
            cases ho : fnText l o with
            | error e => simp [Except.map, Except.isOk, Except.toBool, ho]
            | ok t =>
              have := ih (i + 1)
              have hmap : Except.map fnWritestr (Except.ok t : Res FnText) = .ok (fnWritestr t) := rfl
              simp only [List.mem_cons, forall_eq_or_imp, ho, hmap]
              rw [← this]
              cases fnLines (fun l f => (fnText l f).map fnWritestr) label l (i + 1) os <;>
                simp [Except.isOk, Except.toBool]
        rw [← gen 0 l]
        unfold fnSection
        simp only
        cases fnLines (fun l f => (fnText l f).map fnWritestr) label l 0 l <;> rfl
      rw [← hsec "## PeakFunctions".toList "# PeakFunction ".toList, ← hsec "## BaselineFunctions".toList "# BaselineFunction ".toList,
        ← dataText_isOk fmt]
      unfold mcWritestrKw
      simp only [pfToWrite, blfToWrite, hf, hbl, hids, hbid, his, hbt, hpt]
      cases fnSection fnText "## BaselineFunctions".toList "# BaselineFunction ".toList (safe (baselineFunctionOf c)) none with
      | error e => simp [Except.isOk, Except.toBool]
      | ok bs =>
        cases fnSection fnText "## PeakFunctions".toList "# PeakFunction ".toList (safe (functionsOf c)) none with
        | error e => simp [Except.isOk, Except.toBool]
        | ok ps =>
          cases dataText fmt c.r c.y c.err with
          | error e => simp [Except.isOk, Except.toBool]
          | ok d => simp [Except.isOk, Except.toBool]

/-- **C111, finding.** A cluster without a baseline, which `writestr` has a text for (`None`), is not written unless the list of
baseline functions is given: AttributeError. -/
theorem c111_no_baseline (P : Python K V) (fmt : K → List Char) (safe : List ℕ → List (Owner K))
    (fnText : List (Owner K) → Owner K → Res FnText) (c : Mc K) (pf : List (Owner K)) (h : c.baseline = none) :
    mcWritestrKw P fmt safe fnText (some pf) none c = .error .attribute ∧
    (c.funcs ≠ none → mcWritestrKw P fmt safe fnText none none c = .error .attribute) := by
  constructor
  · simp [mcWritestrKw, pfToWrite, blfToWrite, h]
  · intro hf
    obtain ⟨fs, hf⟩ := Option.ne_none_iff_exists'.1 hf
    simp [mcWritestrKw, pfToWrite, blfToWrite, h, hf]

/-- **C111, finding.** A cluster without peak functions, which `writestr` has a text for (`peak_funcs=None`), is not written
unless the list of peak functions is given: TypeError. -/
theorem c111_no_functions (P : Python K V) (fmt : K → List Char) (safe : List ℕ → List (Owner K))
    (fnText : List (Owner K) → Owner K → Res FnText) (c : Mc K) (blfk : Option (List (Owner K))) (h : c.funcs = none) :
    mcWritestrKw P fmt safe fnText none blfk c = .error .type := by
  simp [mcWritestrKw, pfToWrite, h]

/-- **C111, finding.** With the package as it is, what is written on its own cannot be read on its own either: the evaluator is
not a name of the package. -/
theorem c111_evaluator_not_found (P : Python K V) (call : FnRead V → List (Owner K) → Res (Owner K)) (indices : V → Res (List ℤ))
    (float : List Char → Option K) (fmt : K → List Char) (g : K → K) (safe : List ℕ → List (Owner K))
    (fnText : List (Owner K) → Owner K → Res FnText) (attr : List Char → Option E) (c : Mc K) (pfk blfk : Option (List (Owner K)))
    (pf blf pf' blf' : List (Owner K)) (slice : V) (hpf : pf = pfk.getD (safe (functionsOf c)))
    (hblf : blf = blfk.getD (safe (baselineFunctionOf c))) (hb1 : Back P call fnText pfk pf pf') (hb2 : Back P call fnText blfk blf blf')
    (h : McReadable P indices float fmt g c pf blf slice) (hattr : ∀ n e, attr n = some e → n ∈ packageNames)
    (hm : c.method ∈ [none, some "AIC".toList, some "AICc".toList, some "ModelEvaluator".toList])
    (text : List Char) (hw : mcWritestrKw P fmt safe fnText pfk blfk c = .ok text) :
    mcFactoryKw P call indices float attr pfk blfk text = .error .attribute := by
  obtain ⟨w1, w2⟩ := written_lists hw
  rw [← hpf] at w1
  rw [← hblf] at w2
  obtain ⟨os, -, hr⟩ := mcFactoryKw_lines h w1 w2 hb1 hb2 attr hw
  rw [hr]
  cases ha : attr (c.method.getD "None".toList) with
  | none => rfl
  | some e =>
    have hin := hattr _ _ ha
    have key : ∀ m ∈ [none, some "AIC".toList, some "AICc".toList, some "ModelEvaluator".toList],
        m.getD "None".toList ∉ packageNames := by
      unfold packageNames
      decide
    exact absurd hin (key _ hm)

/-! ### An example -/

/-- A Python that also knows the texts of functions. -/
def exPyA : Python ℤ ExV :=
  { exPyC with
    eval := fun t => if t = "'F'".toList then some (.int 100) else if t = "'m'".toList then some (.int 101)
      else if t = "None".toList then some (.int 102) else exPyC.eval t
    isNone := fun v => decide (v = .int 102) }

/-- What is written of the functions: the function 8 has the function 5 as its base. -/
def exFnText (fs : List (Owner ℤ)) (f : Owner ℤ) : Res FnText :=
  if f.id = 8 then
    match ownerIndex fs 5 with
    | none => .error .value
    | some i => .ok ⟨"'F'".toList, "'m'".toList, some i, [("qmax".toList, "2".toList)]⟩
  else .ok ⟨"'F'".toList, "'m'".toList, none, []⟩

/-- New functions: numbered by their position. -/
def exCall (_ : FnRead ExV) (done : List (Owner ℤ)) : Res (Owner ℤ) := .ok (exOwner (100 + done.length))

/-- The list of functions, bases first. -/
def exSafeA (ids : List ℕ) : List (Owner ℤ) := ids.dedup.reverse.map exOwner

/-- A part of the function 5. -/
def exPart5 : Part ℤ := { exTextPart with owner := exOwner 5 }

/-- A cluster of peaks of both functions, with a baseline. -/
def exMcA : Mc ℤ :=
  ⟨[exTextPart, exPart5, exTextPart], some exPart5, some [8, 5], some "AIC".toList, "slice(0, 2, None)".toList, [3, 7], [7, 7], [3, 3]⟩

theorem exReadableA (p : Part ℤ) (hp : p = exTextPart ∨ p = exPart5) (i : ℕ) (hi : i ≤ 1) : Readable exPyA p i where
  index := by
    rcases Nat.le_one_iff_eq_zero_or_eq_one.1 hi with rfl | rfl
    · exact ⟨.int 0, by decide, rfl⟩
    · exact ⟨.int 1, by decide, rfl⟩
  pars := by rcases hp with rfl | rfl <;> exact ⟨.nums [3, 7], by decide, rfl⟩
  free := by rcases hp with rfl | rfl <;> exact ⟨.bools [true, false], by decide, rfl⟩
  bool := fun b => ⟨.bool b, by cases b <;> decide, rfl⟩
  numLine := by
    intro x hx
    have : x ∈ [3, 7] := by rcases hp with rfl | rfl <;> exact hx
    simp only [List.mem_cons, List.not_mem_nil, or_false] at this
    rcases hp with rfl | rfl <;> rcases this with rfl | rfl <;> (intro c hc; revert c; decide)
  freeLine := oneLine_reprBool

theorem exPartA (p : Part ℤ) (os : List (Owner ℤ)) (h : p = exTextPart ∧ os = [exOwner 5, exOwner 8] ∨
    p = exPart5 ∧ (os = [exOwner 5, exOwner 8] ∨ os = [exOwner 5])) : PartReadable exPyA os p := by
  have hp : p = exTextPart ∨ p = exPart5 := by rcases h with ⟨h, -⟩ | ⟨h, -⟩ <;> simp [h]
  have hos : os = [exOwner 5, exOwner 8] ∨ os = [exOwner 5] := by rcases h with ⟨-, h⟩ | ⟨-, h⟩ <;> simp [h]
  refine ⟨?_, ?_, ?_, ?_⟩
  · intro o ho hid
    have : o = exOwner 5 ∨ o = exOwner 8 := by
      rcases hos with rfl | rfl
      · simpa using ho
      · left; simpa using ho
    rcases hp with rfl | rfl <;> rcases this with rfl | rfl
    · exact absurd hid (by decide)
    · rfl
    · rfl
    · exact absurd hid (by decide)
  · rcases hp with rfl | rfl <;> rfl
  · rcases hp with rfl | rfl <;> rfl
  · intro i hi
    obtain ⟨o, ho, -⟩ := ownerIndex_some hi
    have hlt := (List.getElem?_eq_some_iff.1 ho).1
    refine exReadableA p hp i ?_
    rcases hos with rfl | rfl <;> simp only [List.length_cons, List.length_nil] at hlt <;> omega

theorem exLists : exSafeA (functionsOf exMcA) = [exOwner 5, exOwner 8] ∧ exSafeA (baselineFunctionOf exMcA) = [exOwner 5] := by
  constructor <;> rfl

theorem exMcReadableA : McReadable exPyA exIndices exFloat (exPy.reprNum false) id exMcA [exOwner 5, exOwner 8] [exOwner 5] (.int 9) := by
  constructor
  · intro p hp
    simp only [exMcA, List.mem_cons, List.not_mem_nil, or_false] at hp
    rcases hp with rfl | rfl | rfl
    · exact exPartA _ _ (.inl ⟨rfl, rfl⟩)
    · exact exPartA _ _ (.inr ⟨rfl, .inl rfl⟩)
    · exact exPartA _ _ (.inl ⟨rfl, rfl⟩)
  · intro p hp
    cases hp
    exact exPartA _ _ (.inr ⟨rfl, .inr rfl⟩)
  · intro h; cases h
  · intro fs is h1 h2
    cases h1
    have : funcIndices [exOwner 5, exOwner 8] [8, 5] = .ok [1, 0] := by decide
    rw [this] at h2
    cases h2
    exact ⟨.nums [1, 0], by decide, by decide, rfl⟩
  · intro m hm
    cases hm
    decide
  · decide
  · decide
  · intro x hx
    have : x = 3 ∨ x = 7 := by
      simp [exMcA] at hx
      tauto
    rcases this with rfl | rfl
    · decide
    · decide
  · decide

theorem exRebuilds5 : Rebuilds exPyA exCall exFnText [exOwner 5] [exOwner 100] := by
  refine ⟨rfl, by decide, ?_⟩
  intro i o ho
  have hlt := (List.getElem?_eq_some_iff.1 ho).1
  simp only [List.length_cons, List.length_nil] at hlt
  have : i = 0 := by omega
  subst this
  cases ho
  refine ⟨⟨"'F'".toList, "'m'".toList, none, []⟩, ⟨.int 100, .int 101, none, []⟩, exOwner 100, rfl, ?_, (fun _ h => nomatch h), rfl, rfl, rfl⟩
  exact ⟨(fun _ h => nomatch h), by decide, by unfold OneLine; decide, by decide, by decide, by decide, rfl,
    fun _ => ⟨.int 102, by decide, by decide⟩, (fun _ h => nomatch h), .nil⟩

theorem exRebuilds58 : Rebuilds exPyA exCall exFnText [exOwner 5, exOwner 8] [exOwner 100, exOwner 101] := by
  refine ⟨rfl, by decide, ?_⟩
  intro i o ho
  have hlt := (List.getElem?_eq_some_iff.1 ho).1
  simp only [List.length_cons, List.length_nil] at hlt
  obtain rfl | rfl : i = 0 ∨ i = 1 := by omega
  · cases ho
    refine ⟨⟨"'F'".toList, "'m'".toList, none, []⟩, ⟨.int 100, .int 101, none, []⟩, exOwner 100, rfl, ?_, (fun _ h => nomatch h), rfl, rfl, rfl⟩
    exact ⟨(fun _ h => nomatch h), by decide, by unfold OneLine; decide, by decide, by decide, by decide, rfl,
      fun _ => ⟨.int 102, by decide, by decide⟩, (fun _ h => nomatch h), .nil⟩
  · cases ho
    refine ⟨⟨"'F'".toList, "'m'".toList, some 0, [("qmax".toList, "2".toList)]⟩, ⟨.int 100, .int 101, some 0, [("qmax".toList, .int 2)]⟩,
      exOwner 101, rfl, ?_, by unfold Plain; decide, rfl, rfl, rfl⟩
    refine ⟨by unfold IsKey; decide, by decide, by unfold OneLine; decide, by decide, by decide, by decide, rfl,
      (fun h => by cases h), ?_, .cons ⟨rfl, by decide⟩ .nil⟩
    intro i hi
    cases hi
    exact ⟨by decide, .int 0, by decide, by decide, by decide⟩

/-- Instance of `c111_writable`, `c111_roundtrip`, `c111_shared` and `c111_evaluator_not_found`: the cluster is written; if
the name `AIC` is found, it is read with two new functions that the three peaks share as before; otherwise not at all. -/
example : ∃ text, mcWritestrKw exPyA (exPy.reprNum false) exSafeA exFnText none none exMcA = .ok text ∧
    (∃ m, mcFactoryKw (E := ℕ) exPyA exCall exIndices exFloat (fun n => if n = "AIC".toList then some 0 else none) none none text = .ok m ∧
      m.r = some [3, 7] ∧ List.Forall₂ (SamePart [exOwner 5, exOwner 8] [exOwner 100, exOwner 101]) exMcA.model m.model) ∧
    mcFactoryKw (E := ℕ) exPyA exCall exIndices exFloat (fun n => if n ∈ packageNames then some 0 else none) none none text =
      .error .attribute := by
  obtain ⟨text, ht⟩ := (c111_writable exPyA (exPy.reprNum false) exSafeA exFnText exMcA (by
      intro ids i hi
      refine ⟨exOwner i, ?_, rfl⟩
      unfold exSafeA
      exact List.mem_map.2 ⟨i, by simpa using hi, rfl⟩)).2 (by
    refine ⟨by simp [exMcA], by simp [exMcA], ?_, ?_, by decide, by decide⟩
    · rw [exLists.1]
      intro f hf
      simp only [List.mem_cons, List.not_mem_nil, or_false] at hf
      rcases hf with rfl | rfl
      · exact ⟨_, rfl⟩
      · exact ⟨⟨"'F'".toList, "'m'".toList, some 0, [("qmax".toList, "2".toList)]⟩, rfl⟩
    · rw [exLists.2]
      intro f hf
      simp only [List.mem_cons, List.not_mem_nil, or_false] at hf
      subst hf
      exact ⟨_, rfl⟩)
  refine ⟨text, ht, ?_, ?_⟩
  · obtain ⟨m, h1, h2, -, -, h3, -⟩ := c111_roundtrip exPyA exCall exIndices exFloat (exPy.reprNum false) id exSafeA exFnText
      (fun n => if n = "AIC".toList then some 0 else none) exMcA none none _ _ [exOwner 100, exOwner 101] [exOwner 100] (.int 9) 0
      exLists.1.symm exLists.2.symm (by
        intro x hx y hy hid
        simp only [List.mem_cons, List.not_mem_nil, or_false] at hx hy
        rcases hx with rfl | rfl <;> rcases hy with rfl | rfl
        · rfl
        · exact absurd hid (by decide)
        · exact absurd hid (by decide)
        · rfl) exRebuilds58 exRebuilds5 exMcReadableA (by decide) (by decide) text ht
    exact ⟨m, h1, h3, h2⟩
  · refine c111_evaluator_not_found exPyA exCall exIndices exFloat (exPy.reprNum false) id exSafeA exFnText _ exMcA none none _ _
      [exOwner 100, exOwner 101] [exOwner 100] (.int 9) exLists.1.symm exLists.2.symm exRebuilds58 exRebuilds5 exMcReadableA ?_
      (by decide) text ht
    intro n e hn
    split at hn
    · assumption
    · cases hn

/-- Instance of `c111_no_baseline` and `c111_no_functions`. -/
example : mcWritestrKw exPyA (exPy.reprNum false) exSafeA exFnText none none { exMcA with baseline := none } = .error .attribute ∧
    mcWritestrKw exPyA (exPy.reprNum false) exSafeA exFnText none none { exMcA with funcs := none } = .error .type :=
  ⟨(c111_no_baseline _ _ _ _ _ [] rfl).2 (by simp [exMcA]), c111_no_functions _ _ _ _ _ none rfl⟩

end Verif.Text
