import Verif.Text.ClusterProps
import Verif.Text.ExtractionModel

/-!
# C78: files of a `PeakExtraction`
-/

namespace Verif.Text

open Verif.Py Verif.Parts

open Verif.Pdf (splitLines)

set_option linter.unusedSectionVars false

variable {K V : Type}

/-- **C78, finding.** Reading never succeeds, whatever the file or text: `read` ends in TypeError (or OSError if there is no
such file), `readstr` of a text in NameError or `re.error`, of bytes in TypeError; and the object has been cleared, unless the
file could not be opened. -/
theorem c78_read (p : Px K) :
    (∀ file, (read p file).1 ≠ .ok ()) ∧ (∀ b, read p (some b) = (.error .type, {})) ∧
    (∀ i, (readstr p i).1 ∈ [.error .type, .error .name, .error Err.regex] ∧ (readstr p i).2 = {}) := by
  refine ⟨?_, fun b => rfl, ?_⟩
  · intro file
    cases file with
    | none => exact fun h => by cases h
    | some b => exact fun h => by cases h
  · intro i
    cases i with
    | bytes b => exact ⟨by simp [readstr], rfl⟩
    | str t =>
      unfold readstr
      simp only
      cases cut "Results".toList (splitLines t) with
      | none => exact ⟨by simp, rfl⟩
      | some hr =>
        simp only
        cases cut "start data".toList hr.1 with
        | none => exact ⟨by simp, rfl⟩
        | some _ => exact ⟨by simp, rfl⟩

theorem fnLines_ok {fnText : List (Owner K) → Owner K → Res (List Char)} (label : List Char) (all : List (Owner K)) (i : ℕ)
    (fs : List (Owner K)) (h : ∀ f ∈ fs, ∃ t, fnText all f = .ok t) : ∃ ts, fnLines fnText label all i fs = .ok ts := by
  induction fs generalizing i with
  | nil => exact ⟨[], rfl⟩
  | cons f fs ih =>
    obtain ⟨t, ht⟩ := h f (by simp)
    obtain ⟨ts, hts⟩ := ih (i + 1) (fun x hx => h x (by simp [hx]))
    rw [fnLines, ht]
    simp only
    rw [hts]
    exact ⟨_, rfl⟩

theorem pxPeaksText_ok (P : Python K V) (pf : List (Owner K)) (ps : List (Part K)) (h : ∀ p ∈ ps, Listed pf p.owner.id) :
    ∃ ts, pxPeaksText P pf ps = .ok ts := by
  induction ps with
  | nil => exact ⟨[], rfl⟩
  | cons p ps ih =>
    obtain ⟨i, hi⟩ := (ownerIndex_listed pf p.owner.id).1 (h p (by simp))
    obtain ⟨ts, hts⟩ := ih (fun x hx => h x (by simp [hx]))
    rw [pxPeaksText, writestr, hi]
    simp only
    rw [hts]
    exact ⟨_, rfl⟩

theorem pxRows_ok (fmt : K → List Char) (cols : List (List Char × List K)) (is : List ℕ) :
    (∃ ts, pxRows fmt cols is = .ok ts) ↔ ∀ i ∈ is, ∀ c ∈ cols, i < c.2.length := by
  induction is with
  | nil => exact ⟨(fun _ i h => absurd h (by simp)), fun _ => ⟨[], rfl⟩⟩
  | cons i is ih =>
    have hrow : ∀ cs : List (List Char × List K), (∃ vs, cs.mapM (fun c => c.2[i]?) = some vs) ↔ ∀ c ∈ cs, i < c.2.length := by
      intro cs
      induction cs with
      | nil => simp
      | cons c cs ihc =>
        rw [List.mapM_cons]
        by_cases hlt : i < c.2.length
        · rw [List.getElem?_eq_getElem hlt]
          simp only [Option.bind_eq_bind, Option.bind_some, List.mem_cons, forall_eq_or_imp, hlt, true_and]
          rw [← ihc]
          constructor
          · rintro ⟨vs, h⟩
            cases hm : cs.mapM (fun c => c.2[i]?) with
            | none => rw [hm] at h; cases h
            | some w => exact ⟨w, rfl⟩
          · rintro ⟨w, hw⟩
            rw [hw]
            exact ⟨_, rfl⟩
        · rw [List.getElem?_eq_none (by omega)]
          simp only [Option.bind_eq_bind, Option.bind_none, List.mem_cons, forall_eq_or_imp, hlt, false_and]
          exact ⟨fun ⟨_, h⟩ => (by cases h), fun h => h.elim⟩
    rw [pxRows, pxRow]
    simp only [List.mem_cons, forall_eq_or_imp]
    rw [← ih, ← hrow cols]
    cases cols.mapM (fun c => c.2[i]?) with
    | none => exact ⟨fun ⟨_, h⟩ => (by cases h), fun ⟨⟨_, h⟩, _⟩ => (by cases h)⟩
    | some vs =>
      simp only
      cases pxRows fmt cols is with
      | error e => exact ⟨fun ⟨_, h⟩ => (by cases h), fun ⟨_, ⟨_, h⟩⟩ => (by cases h)⟩
      | ok ts => exact ⟨fun _ => ⟨⟨vs, rfl⟩, ⟨ts, rfl⟩⟩, fun _ => ⟨_, rfl⟩⟩

/-- All columns of the data have `n` values. -/
def Rectangular (p : Px K) (n : ℕ) : Prop :=
  ∀ l, (p.x = some l ∨ p.y = some l ∨ p.dx = some l ∨ p.dy = some l ∨ p.edy = some l) → l.length = n

theorem columns_mem {p : Px K} {c : List Char × List K} (h : c ∈ pxColumns p) :
    p.x = some c.2 ∨ p.y = some c.2 ∨ p.dx = some c.2 ∨ p.dy = some c.2 ∨ p.edy = some c.2 := by
  unfold pxColumns at h
  obtain ⟨e, he, hc⟩ := List.mem_filterMap.1 h
  obtain ⟨l, hl, rfl⟩ := Option.map_eq_some_iff.1 hc
  simp only [List.mem_cons, List.not_mem_nil, or_false] at he
  rcases he with rfl | rfl | rfl | rfl | rfl
  · exact .inl hl
  · exact .inr (.inl hl)
  · exact .inr (.inr (.inl hl))
  · exact .inr (.inr (.inr (.inl hl)))
  · exact .inr (.inr (.inr (.inr hl)))

/-- **C78.** Whatever is extracted can be written: `writestr` succeeds for every object with a clustering resolution and
metadata (that is, every `PDFPeakExtraction` after `setvars` or `defaultvars`) whose data columns have one length, as long as an
extracted cluster has a list of peak functions and values and uncertainties for its coordinates.  The functions needed are all
found because the lists are made from the functions in use (`safefunctionlist` keeps what it is given, `c19_safefunctionlist`). -/
theorem c78_writable (P : Python K V) (fmt : K → List Char) (safe : List ℕ → List (Owner K))
    (fnText : List (Owner K) → Owner K → Res (List Char)) (header : List (List Char)) (p : Px K) (n : ℕ)
    (hsafe : ∀ ids, ∀ i ∈ ids, Listed (safe ids) i) (hfn : ∀ ids, ∀ f ∈ safe ids, ∃ t, fnText (safe ids) f = .ok t)
    (hc : p.cres ≠ none) (hm : p.metadata ≠ none) (hr : Rectangular p n)
    (he : ∀ m, p.extracted = some m → m.funcs ≠ none ∧ m.r.length ≤ m.y.length ∧ m.r.length ≤ m.err.length) :
    ∃ text, pxWritestr P fmt safe fnText header p = .ok text := by
  have hids : ∃ ids, allPf p = .ok ids ∧ (∀ f ∈ p.pf.getD [], f ∈ ids) ∧ (∀ q ∈ p.initialPeaks.getD [], q.owner.id ∈ ids) ∧
      ∀ m, p.extracted = some m → (∀ fs, m.funcs = some fs → ∀ f ∈ fs, f ∈ ids) ∧ ∀ q ∈ m.model, q.owner.id ∈ ids := by
    unfold allPf
    simp only
    cases hx : p.extracted with
    | none =>
      refine ⟨_, rfl, ?_, ?_, fun _ h => nomatch h⟩
      · intro f hf
        exact List.mem_append_left _ hf
      · intro q hq
        exact List.mem_append_right _ (List.mem_map.2 ⟨q, hq, rfl⟩)
    | some m =>
      simp only
      cases hf : m.funcs with
      | none => exact absurd hf (he m hx).1
      | some fs =>
        refine ⟨_, rfl, ?_, ?_, ?_⟩
        · intro f hf
          simp [hf]
        · intro q hq
          simp only [List.mem_append, List.mem_map]
          exact .inl (.inl (.inr ⟨q, hq, rfl⟩))
        · intro m' hm'
          cases hm'
          refine ⟨?_, ?_⟩
          · intro fs' hfs' f hf'
            rw [hf] at hfs'
            cases hfs'
            simp [hf']
          · intro q hq
            simp only [List.mem_append, List.mem_map]
            exact .inr ⟨q, hq, rfl⟩
  obtain ⟨ids, h0, h1, h2, h3⟩ := hids
  obtain ⟨bl, hbl⟩ := fnLines_ok "# BaselineFunction ".toList (safe (allBf p)) 0 (safe (allBf p)) (hfn (allBf p))
  obtain ⟨pl, hpl⟩ := fnLines_ok "# PeakFunction ".toList (safe ids) 0 (safe ids) (hfn ids)
  obtain ⟨bt, hbt⟩ : ∃ t, pxBaselineText P (safe (allBf p)) p.baseline = .ok t := by
    cases hb : p.baseline with
    | none => exact ⟨_, rfl⟩
    | some b =>
      cases b with
      | inl b =>
        obtain ⟨i, hi⟩ := (ownerIndex_listed (safe (allBf p)) b.owner.id).1 (hsafe _ _ (by simp [allBf, hb]))
        simp only [pxBaselineText, writestr]
        rw [hi]
        exact ⟨_, rfl⟩
      | inr f =>
        obtain ⟨i, hi⟩ := (ownerIndex_listed (safe (allBf p)) f).1 (hsafe _ _ (by simp [allBf, hb]))
        simp only [pxBaselineText]
        rw [hi]
        exact ⟨_, rfl⟩
  obtain ⟨it, hit⟩ : ∃ t, pxInitialText P (safe ids) p.initialPeaks = .ok t := by
    cases hp : p.initialPeaks with
    | none => exact ⟨_, rfl⟩
    | some ps =>
      rw [hp] at h2
      exact pxPeaksText_ok P (safe ids) ps (fun q hq => hsafe _ _ (h2 q hq))
  obtain ⟨ft, hft⟩ : ∃ t, funcsText (safe ids) p.pf = .ok t := by
    cases hp : p.pf with
    | none => exact ⟨_, rfl⟩
    | some fs =>
      rw [hp] at h1
      have := (funcIndices_ok (safe ids) fs).2 (fun f hf => hsafe _ _ (h1 f hf))
      unfold funcsText
      simp only
      cases hx : funcIndices (safe ids) fs with
      | error e => rw [hx] at this; cases this
      | ok is => exact ⟨_, rfl⟩
  obtain ⟨c, hc⟩ := Option.ne_none_iff_exists'.1 hc
  obtain ⟨md, hm⟩ := Option.ne_none_iff_exists'.1 hm
  obtain ⟨rows, hrows⟩ := (pxRows_ok fmt (pxColumns p) (List.range (numLines (pxColumns p)))).2 (by
    intro i hi c hcm
    rw [List.mem_range] at hi
    have hn : numLines (pxColumns p) ≤ n := by
      unfold numLines
      cases hl : (pxColumns p).getLast? with
      | none => simp
      | some d =>
        simp only [Option.map_some, Option.getD_some]
        exact le_of_eq (hr _ (columns_mem (List.mem_of_getLast? hl)))
    rw [hr _ (columns_mem hcm)]
    omega)
  obtain ⟨mt, hmt⟩ : ∃ t, pxClusterText P fmt (safe ids) (safe (allBf p)) p.extracted = .ok t := by
    cases hx : p.extracted with
    | none => exact ⟨_, rfl⟩
    | some m =>
      simp only [pxClusterText]
      apply (c77_writable P fmt m (safe ids) (safe (allBf p))).2
      obtain ⟨a1, a2⟩ := h3 m hx
      refine ⟨fun q hq => hsafe _ _ (a2 q hq), fun fs hfs f hf => hsafe _ _ (a1 fs hfs f hf), ?_, (he m hx).2⟩
      intro b hb
      exact hsafe _ _ (by simp [allBf, hx, hb])
  unfold pxWritestr
  rw [h0]
  simp only
  rw [hbl]
  simp only
  rw [hpl]
  simp only
  rw [hbt]
  simp only
  rw [hit]
  simp only
  rw [hft]
  simp only
  rw [hc]
  simp only
  rw [hrows]
  simp only
  rw [hmt]
  simp only
  rw [hm]
  exact ⟨_, rfl⟩

/-- **C78, finding.** What cannot be written: an object of the base class (its `writemetadata` returns nothing), one without
a clustering resolution, and one whose extracted cluster has no peak functions. -/
theorem c78_unwritable (P : Python K V) (fmt : K → List Char) (safe : List ℕ → List (Owner K))
    (fnText : List (Owner K) → Owner K → Res (List Char)) (header : List (List Char)) (p : Px K)
    (h : p.cres = none ∨ p.metadata = none ∨ ∃ m, p.extracted = some m ∧ m.funcs = none) (text : List Char) :
    pxWritestr P fmt safe fnText header p ≠ .ok text := by
  intro hw
  unfold pxWritestr at hw
  split at hw
  · cases hw
  rename_i ids hids
  simp only at hw
  split at hw
  · cases hw
  split at hw
  · cases hw
  split at hw
  · cases hw
  split at hw
  · cases hw
  split at hw
  · cases hw
  split at hw
  · cases hw
  rename_i c hc
  split at hw
  · cases hw
  split at hw
  · cases hw
  split at hw
  · cases hw
  rename_i md hmd
  rcases h with h | h | ⟨m, h1, h2⟩
  · rw [h] at hc; cases hc
  · rw [h] at hmd; cases hmd
  · unfold allPf at hids
    simp only [h1, h2] at hids
    cases hids

/-! ### An example -/

/-- An extraction with one function, one initial peak and three points. -/
def exPx : Px ℤ :=
  { pf := some [8], initialPeaks := some [exTextPart], baseline := some (.inl exTextPart), cres := some 3,
    metadata := some "qmax=None\n".toList, x := some [3, 7, 3], y := some [7, 7, 7], extracted := some exMc }

/-- The functions, in one list. -/
def exSafe (ids : List ℕ) : List (Owner ℤ) := ids.dedup.map exOwner

/-- Instance of `c78_writable`, and of `c78_read` on what was written. -/
example : (∃ text, pxWritestr exPyC (exPy.reprNum false) exSafe (fun _ _ => .ok "function='F'\n".toList) [] exPx = .ok text ∧
      readstr exPx (.str text) = (.error Err.regex, {})) ∧
    readstr exPx (.str "no sections".toList) = (.error .name, {}) := by
  refine ⟨?_, rfl⟩
  obtain ⟨text, ht⟩ := c78_writable exPyC (exPy.reprNum false) exSafe (fun _ _ => .ok "function='F'\n".toList) [] exPx 3 (by
    intro ids i hi
    exact ⟨exOwner i, List.mem_map.2 ⟨i, List.mem_dedup.2 hi, rfl⟩, rfl⟩) (fun _ _ _ => ⟨_, rfl⟩) (by decide) (by decide) (by
    intro l hl
    simp only [exPx, Option.some.injEq, reduceCtorEq, or_false] at hl
    rcases hl with rfl | rfl <;> rfl) (by
    intro m hm
    cases hm
    decide)
  refine ⟨text, ht, ?_⟩
  have : pxWritestr exPyC (exPy.reprNum false) exSafe (fun _ _ => .ok "function='F'\n".toList) [] exPx = .ok text := ht
  have h2 : ∀ t, pxWritestr exPyC (exPy.reprNum false) exSafe (fun _ _ => .ok "function='F'\n".toList) [] exPx = .ok t →
      (∃ a b, cut "Results".toList (splitLines t) = some (a, b) ∧ (cut "start data".toList a).isSome = true) := by
    intro t h
    have e : pxWritestr exPyC (exPy.reprNum false) exSafe (fun _ _ => .ok "function='F'\n".toList) [] exPx =
      .ok (match pxWritestr exPyC (exPy.reprNum false) exSafe (fun _ _ => .ok "function='F'\n".toList) [] exPx with | .ok t => t | .error _ => []) := by
      rw [h]
    have ht : t = (match pxWritestr exPyC (exPy.reprNum false) exSafe (fun _ _ => .ok "function='F'\n".toList) [] exPx with | .ok t => t | .error _ => []) := by
      rw [h]
    rw [ht]
    have d : ((cut "Results".toList (splitLines (match pxWritestr exPyC (exPy.reprNum false) exSafe (fun _ _ => .ok "function='F'\n".toList) [] exPx with | .ok t => t | .error _ => []))).bind
      (fun ab => cut "start data".toList ab.1)).isSome = true := by decide +kernel
    cases hc : cut "Results".toList (splitLines (match pxWritestr exPyC (exPy.reprNum false) exSafe (fun _ _ => .ok "function='F'\n".toList) [] exPx with | .ok t => t | .error _ => [])) with
    | none => rw [hc] at d; cases d
    | some ab =>
      rw [hc] at d
      exact ⟨ab.1, ab.2, rfl, d⟩
  obtain ⟨a, b, h3, h4⟩ := h2 text ht
  unfold readstr
  simp only
  rw [h3]
  simp only
  cases h5 : cut "start data".toList a with
  | none => rw [h5] at h4; cases h4
  | some _ => rfl

end Verif.Text
