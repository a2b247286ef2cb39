import Verif.App.Props
import Verif.Text.PwaProps
import Verif.Text.ExtractionProps

/-!
# Property C103: what a run of the program `srmise` leaves

`applications/extract.py:585-617`, the end of `main`: extraction, `--save`, `--pwa`, what is printed, `--plot`.

## Model
-/

set_option linter.unusedSectionVars false

namespace Verif.App

open Verif.Py Verif.Extraction Verif.Pdf Verif.Text Verif.Parts

variable {K V Obj Cov : Type}

/-- `SrMiseFileError`. -/
def Err.file : Err := .other 3

/-- `OSError`. -/
def Err.os : Err := .other 4

/-- The options for the end of the program, and whether there is an extraction — extract.py:110-116, 348-373. -/
structure Ending where
  performextraction : Bool := true
  savefile : Option (List Char) := none
  pwafile : Option (List Char) := none
  plot : Bool := false

/-- Files and printed texts. -/
structure Desk where
  disk : List Char → Option (List Char)
  out : List (List Char)

/-- What the end of the program works with: the new object with given variables; `extract` of an object; its members; what
`writestr` and `writepwastr` need (see `Text`); the texts of a covariance object and of the object; which files can be opened for
writing; `str` of an exception; plotting. -/
structure Session (K V Obj Cov : Type) where
  start : PPX K → Obj
  extract : Obj → Res Cov × Obj
  view : Obj → Px K
  python : Python K V
  fmt : K → List Char
  safe : List ℕ → List (Owner K)
  fnText : List (Owner K) → Owner K → Res (List Char)
  header : List (List Char)
  pwa : Obj → Pwa K
  showCov : Cov → Res (List Char)
  showObj : Obj → Res (List Char)
  openable : List Char → Bool
  showErr : Err → List Char
  plot : Obj → Res Unit

/-- `print`. -/
def printed (t : Res (List Char)) (d : Desk) : Res Unit × Desk :=
  match t with
  | .error e => (.error e, d)
  | .ok t => (.ok (), { d with out := d.out ++ [t] })

/-- `write(filename)`, `writepwa(filename)` — peakextraction.py:546-559, pdfpeakextraction.py:722-741: the text first, then the file. -/
def written (S : Session K V Obj Cov) (file : List Char) (t : Res (List Char)) (d : Desk) : Res Unit × Desk :=
  match t with
  | .error e => (.error e, d)
  | .ok t => if S.openable file then (.ok (), { d with disk := Function.update d.disk file (some t) }) else (.error Err.os, d)

/-- `except SrMiseFileError as err: print(err); print(message)` — extract.py:595-597, 602-604. -/
def caught (S : Session K V Obj Cov) (message : List Char) (r : Res Unit × Desk) : Res Unit × Desk :=
  match r with
  | (.error e, d) => if e = Err.file then (.ok (), { d with out := d.out ++ [S.showErr e, message] }) else (.error e, d)
  | (.ok (), d) => (.ok (), d)

/-- Sequence of statements. -/
def then' (r : Res Unit × Desk) (f : Desk → Res Unit × Desk) : Res Unit × Desk :=
  match r with
  | (.error e, d) => (.error e, d)
  | (.ok (), d) => f d

/-- `ext.writestr()`. -/
def fullText (S : Session K V Obj Cov) (o : Obj) : Res (List Char) :=
  pxWritestr S.python S.fmt S.safe S.fnText S.header (S.view o)

/-- `ext.writepwastr("n/a")`. -/
def summary (S : Session K V Obj Cov) (o : Obj) : Res (List Char) := writepwastr (S.pwa o) S.safe (S.view o) "n/a".toList

/-- `--save` — extract.py:592-597. -/
def saving (S : Session K V Obj Cov) (e : Ending) (o : Obj) (d : Desk) : Res Unit × Desk :=
  if given e.savefile then
    caught S ("Could not save result to '".toList ++ e.savefile.getD [] ++ "'.".toList) (written S (e.savefile.getD []) (fullText S o) d)
  else (.ok (), d)

/-- `--pwa` — extract.py:599-604. -/
def summing (S : Session K V Obj Cov) (e : Ending) (o : Obj) (d : Desk) : Res Unit × Desk :=
  if given e.pwafile then
    caught S ("Could not save pwa summary to '".toList ++ e.pwafile.getD [] ++ "'.".toList) (written S (e.pwafile.getD []) (summary S o) d)
  else (.ok (), d)

/-- After the extraction — extract.py:592-613; a covariance object is true (the class has no `__len__`). -/
def reporting (S : Session K V Obj Cov) (e : Ending) (o : Obj) (cov : Option Cov) (d : Desk) : Res Unit × Desk :=
  then' (saving S e o d) fun d =>
  then' (summing S e o d) fun d =>
  then' (printed (S.showObj o) d) fun d =>
  then' (match cov with | none => (.ok (), d) | some c => printed (S.showCov c) d) fun d =>
  if e.plot then (S.plot o, d) else (.ok (), d)

/-- The end of the program — extract.py:587-613: the variables after `setvars`. -/
def ending (S : Session K V Obj Cov) (e : Ending) (s : PPX K) (d : Desk) : Res Unit × Desk :=
  if e.performextraction then
    match S.extract (S.start s) with
    | (.error x, _) => (.error x, d)
    | (.ok cov, o) => then' (printed (S.showCov cov) d) (reporting S e o (some cov))
  else reporting S e (S.start s) none d

/-! ## Specification -/

/-- Nothing on the way to the texts raises SrMiseFileError (the class is raised in `read` only): not the texts of the functions, nor
the quality, nor a change of format. -/
structure NoFileError (S : Session K V Obj Cov) (o : Obj) : Prop where
  functions : ∀ all f, S.fnText all f ≠ .error Err.file
  quality : (S.pwa o).quality ≠ .error Err.file
  formats : ∀ m, (S.view o).extracted = some m → ∀ p ∈ m.model, ∀ v i j, p.owner.transform v i j ≠ .error Err.file

/-- The object after the extraction, if there is one, and its covariance object. -/
def Worked (S : Session K V Obj Cov) (e : Ending) (s : PPX K) (o : Obj) (cov : Option Cov) : Prop :=
  if e.performextraction then ∃ c, S.extract (S.start s) = (.ok c, o) ∧ cov = some c else o = S.start s ∧ cov = none

/-- The file that an option names: a text that is not empty. -/
def Names (opt : Option (List Char)) (f : List Char) : Prop := opt = some f ∧ f ≠ []

/-! ## Lemmas -/

theorem given_iff (t : Option (List Char)) : given t = true ↔ Names t (t.getD []) := by
  cases t with
  | none => simp [given, Names]
  | some t => cases t <;> simp [given, Names]

theorem names_getD {t : Option (List Char)} {f : List Char} (h : Names t f) : given t = true ∧ t.getD [] = f := by
  obtain ⟨rfl, h⟩ := h
  cases f with
  | nil => exact absurd rfl h
  | cons a l => exact ⟨rfl, rfl⟩

/-- Not that exception. -/
def Quiet {α : Type} (r : Res α) : Prop := r ≠ .error Err.file

theorem quiet_ok {α : Type} (a : α) : Quiet (.ok a) := by intro h; cases h

theorem quiet_err {α : Type} {e : Err} (h : e ≠ Err.file) : Quiet (.error e : Res α) := by
  intro h'
  simp only [Except.error.injEq] at h'
  exact h h'

theorem quiet_bind {α β : Type} {r : Res α} {f : α → Res β} (h : Quiet r) (h2 : ∀ a, r = .ok a → Quiet (f a)) : Quiet (r >>= f) := by
  cases r with
  | error e => exact quiet_err (fun he => h (by rw [he]))
  | ok a => exact h2 a rfl

theorem quiet_writestr (P : Python K V) (p : Part K) (l : List (Owner K)) : Quiet (Text.writestr P p l) := by
  unfold Text.writestr
  split
  · exact quiet_err (by decide)
  · exact quiet_ok _

theorem quiet_of {α β : Type} {r : Res α} {e : Err} (h : Quiet r) (he : r = .error e) : Quiet (.error e : Res β) :=
  quiet_err (fun h' => h (by rw [he, h']))

theorem quiet_indices (pf : List (Owner K)) : ∀ fs, Quiet (funcIndices pf fs)
  | [] => quiet_ok _
  | f :: fs => by
    unfold funcIndices
    split
    · exact quiet_err (by decide)
    · split
      · rename_i h; exact quiet_of (quiet_indices pf fs) h
      · exact quiet_ok _

theorem quiet_funcs (pf : List (Owner K)) (fs : Option (List ℕ)) : Quiet (funcsText pf fs) := by
  cases fs with
  | none => exact quiet_ok _
  | some fs =>
    unfold funcsText
    simp only
    cases h : funcIndices pf fs with
    | error e => exact quiet_of (quiet_indices pf fs) h
    | ok a => exact quiet_ok _

theorem quiet_data (fmt : K → List Char) : ∀ r y e, Quiet (dataText fmt r y e)
  | [], _, _ => by unfold dataText; exact quiet_ok _
  | a :: r, b :: y, c :: e => by
    unfold dataText
    split
    · rename_i h; exact quiet_of (quiet_data fmt r y e) h
    · exact quiet_ok _
  | _ :: _, [], _ => by unfold dataText; exact quiet_err (by decide)
  | _ :: _, _ :: _, [] => by unfold dataText; exact quiet_err (by decide)

theorem quiet_mcPeaks (P : Python K V) (pf : List (Owner K)) : ∀ ps, Quiet (peaksText P pf ps)
  | [] => quiet_ok _
  | p :: ps => by
    unfold peaksText
    split
    · rename_i h; exact quiet_of (quiet_writestr P p pf) h
    · split
      · rename_i h; exact quiet_of (quiet_mcPeaks P pf ps) h
      · exact quiet_ok _

theorem quiet_cluster (P : Python K V) (fmt : K → List Char) (pf bf : List (Owner K)) (m : Option (Mc K)) :
    Quiet (pxClusterText P fmt pf bf m) := by
  cases m with
  | none => exact quiet_ok _
  | some m =>
    unfold pxClusterText
    simp only
    unfold mcWritestr
    split
    · rename_i h; exact quiet_of (quiet_funcs _ _) h
    split
    · rename_i h
      unfold baselineText at h
      cases hb : m.baseline with
      | none => rw [hb] at h; cases h
      | some b => rw [hb] at h; exact quiet_of (quiet_writestr P b bf) h
    split
    · rename_i h; exact quiet_of (quiet_mcPeaks _ _ _) h
    split
    · rename_i h; exact quiet_of (quiet_data _ _ _ _) h
    · exact quiet_ok _

theorem quiet_fns (fnText : List (Owner K) → Owner K → Res (List Char)) (hq : ∀ all f, fnText all f ≠ .error Err.file) (label : List Char)
    (all : List (Owner K)) : ∀ fs (i : ℕ), Quiet (fnLines fnText label all i fs)
  | [], i => by unfold fnLines; exact quiet_ok _
  | f :: fs, i => by
    unfold fnLines
    split
    · rename_i h; exact quiet_of (hq all f) h
    · split
      · rename_i h; exact quiet_of (quiet_fns fnText hq label all fs (i + 1)) h
      · exact quiet_ok _

theorem quiet_pxPeaks (P : Python K V) (pf : List (Owner K)) : ∀ ps, Quiet (pxPeaksText P pf ps)
  | [] => quiet_ok _
  | p :: ps => by
    unfold pxPeaksText
    split
    · rename_i h; exact quiet_of (quiet_writestr P p pf) h
    · split
      · rename_i h; exact quiet_of (quiet_pxPeaks P pf ps) h
      · exact quiet_ok _

theorem quiet_rows (fmt : K → List Char) (cols : List (List Char × List K)) : ∀ is, Quiet (pxRows fmt cols is)
  | [] => quiet_ok _
  | i :: is => by
    unfold pxRows
    split
    · rename_i h
      unfold pxRow at h
      split at h
      · cases h; exact quiet_err (by decide)
      · cases h
    · split
      · rename_i h; exact quiet_of (quiet_rows fmt cols is) h
      · exact quiet_ok _

theorem quiet_allPf (p : Px K) : Quiet (allPf p) := by
  unfold allPf
  simp only
  split
  · exact quiet_ok _
  · split
    · exact quiet_err (by decide)
    · exact quiet_ok _

theorem quiet_full (S : Session K V Obj Cov) {o : Obj} (h : NoFileError S o) : Quiet (fullText S o) := by
  unfold fullText pxWritestr
  split
  · rename_i h; exact quiet_of (quiet_allPf _) h
  simp only
  split
  · rename_i h'; exact quiet_of (quiet_fns _ h.functions _ _ _ _) h'
  split
  · rename_i h'; exact quiet_of (quiet_fns _ h.functions _ _ _ _) h'
  split
  · rename_i h'
    unfold pxBaselineText at h'
    split at h'
    · cases h'
    · exact quiet_of (quiet_writestr _ _ _) h'
    · split at h'
      · cases h'; exact quiet_err (by decide)
      · cases h'
  split
  · rename_i h'
    unfold pxInitialText at h'
    split at h'
    · cases h'
    · exact quiet_of (quiet_pxPeaks _ _ _) h'
  split
  · rename_i h'; exact quiet_of (quiet_funcs _ _) h'
  split
  · exact quiet_err (by decide)
  split
  · rename_i h'; exact quiet_of (quiet_rows _ _ _) h'
  split
  · rename_i h'; exact quiet_of (quiet_cluster _ _ _ _ _) h'
  split
  · exact quiet_err (by decide)
  · exact quiet_ok _

theorem quiet_pwaFns (W : Pwa K) (all : List (Owner K)) : ∀ fs (i : ℕ), Quiet (pwaFnLines W all i fs)
  | [], i => by unfold pwaFnLines; exact quiet_ok _
  | f :: fs, i => by
    unfold pwaFnLines
    refine quiet_bind ?_ (fun _ _ => quiet_bind (quiet_pwaFns W all fs (i + 1)) (fun _ _ => quiet_ok _))
    unfold pwaBaseText
    split
    · exact quiet_ok _
    · split
      · exact quiet_err (by decide)
      · exact quiet_ok _

theorem quiet_par (o : Owner K) (q : List K) (name : String) : Quiet (pwaPar o q name) := by
  unfold pwaPar
  split
  · exact quiet_err (by decide)
  · split
    · exact quiet_err (by decide)
    · exact quiet_ok _

theorem quiet_pwaPeaks (W : Pwa K) (pf : List (Owner K)) : ∀ ps : List (Part K),
    (∀ p ∈ ps, ∀ v i j, p.owner.transform v i j ≠ .error Err.file) → Quiet (pwaPeaks W pf ps)
  | [], _ => quiet_ok _
  | p :: ps, h => by
    unfold pwaPeaks
    refine quiet_bind ?_ (fun _ _ => quiet_bind (quiet_pwaPeaks W pf ps (fun q hq => h q (List.mem_cons_of_mem _ hq))) (fun _ _ => quiet_ok _))
    unfold pwaPeak
    refine quiet_bind (h p List.mem_cons_self _ _ _) (fun _ _ => quiet_bind (quiet_par _ _ _) (fun _ _ =>
      quiet_bind (quiet_par _ _ _) (fun _ _ => quiet_bind (quiet_par _ _ _) (fun _ _ => ?_))))
    split
    · exact quiet_err (by decide)
    · exact quiet_ok _

theorem quiet_summary (S : Session K V Obj Cov) {o : Obj} (h : NoFileError S o) : Quiet (summary S o) := by
  unfold summary writepwastr pwaLines
  refine quiet_bind ?_ (fun _ _ => quiet_ok _)
  split
  · exact quiet_err (by decide)
  · rename_i m hm
    refine quiet_bind ?_ (fun _ _ => quiet_bind ?_ (fun _ _ => quiet_bind h.quality (fun _ _ => quiet_bind ?_ (fun _ _ =>
      quiet_bind (quiet_allPf _) (fun _ _ => quiet_bind (quiet_pwaFns _ _ _ _) (fun _ _ => quiet_bind ?_ (fun _ _ =>
      quiet_bind (quiet_pwaFns _ _ _ _) (fun _ _ => quiet_bind (quiet_pwaPeaks _ _ _ (h.formats m hm)) (fun _ _ => quiet_ok _)))))))))
    · split
      · exact quiet_err (by decide)
      · exact quiet_ok _
    · split
      · exact quiet_err (by decide)
      · exact quiet_ok _
    · unfold baselineFree
      split
      · exact quiet_ok _
      · exact quiet_ok _
      · exact quiet_err (by decide)
    · unfold pwaBaseline
      split
      · exact quiet_ok _
      · split
        · exact quiet_err (by decide)
        · split <;> exact quiet_ok _

theorem caught_written (S : Session K V Obj Cov) (msg file : List Char) {t : Res (List Char)} (ht : Quiet t) (d : Desk) :
    caught S msg (written S file t d) = written S file t d := by
  unfold written
  cases t with
  | error e =>
    simp only [caught]
    rw [if_neg (fun he => ht (by rw [he]))]
  | ok t =>
    simp only
    split
    · rfl
    · simp only [caught]
      rw [if_neg (by decide)]

theorem then_ok {r : Res Unit × Desk} {f : Desk → Res Unit × Desk} {d' : Desk} (h : then' r f = (.ok (), d')) :
    ∃ d, r = (.ok (), d) ∧ f d = (.ok (), d') := by
  obtain ⟨u, d⟩ := r
  cases u with
  | error e => simp [then'] at h
  | ok u => exact ⟨d, rfl, h⟩

theorem printed_ok {t : Res (List Char)} {d d' : Desk} (h : printed t d = (.ok (), d')) :
    ∃ x, t = .ok x ∧ d' = { d with out := d.out ++ [x] } := by
  cases t with
  | error e => simp [printed] at h
  | ok x =>
    simp only [printed, Prod.mk.injEq, true_and] at h
    exact ⟨x, rfl, h.symm⟩

theorem written_ok {S : Session K V Obj Cov} {file : List Char} {t : Res (List Char)} {d d' : Desk} (h : written S file t d = (.ok (), d')) :
    ∃ x, t = .ok x ∧ S.openable file = true ∧ d' = { d with disk := Function.update d.disk file (some x) } := by
  cases t with
  | error e => simp [written] at h
  | ok x =>
    simp only [written] at h
    split at h
    · rename_i ho
      simp only [Prod.mk.injEq, true_and] at h
      exact ⟨x, rfl, ho, h.symm⟩
    · simp at h

/-! ## Theorems -/

/-- **C103 (finding).** The messages "Could not save ..." are never printed: with or without the handlers for SrMiseFileError the program
does the same, because a file that cannot be opened is OSError. -/
theorem c103_handlers_unreachable (S : Session K V Obj Cov) (e : Ending) (o : Obj) (d : Desk) (h : NoFileError S o) :
    saving S e o d = (if given e.savefile then written S (e.savefile.getD []) (fullText S o) d else (.ok (), d)) ∧
    summing S e o d = (if given e.pwafile then written S (e.pwafile.getD []) (summary S o) d else (.ok (), d)) := by
  unfold saving summing
  rw [caught_written S _ _ (quiet_full S h), caught_written S _ _ (quiet_summary S h)]
  exact ⟨rfl, rfl⟩

/-- **C103.** If the program ends without an exception, the extraction it was asked for was performed; the file of `--save` has
the text of the object after it, the file of `--pwa` its summary (if both are the same file, only the summary is left), every other file
is as before; and it printed the covariance, the object, and the covariance again - the object only if there was no extraction. -/
theorem c103_success (S : Session K V Obj Cov) (e : Ending) (s : PPX K) (d d' : Desk) (hq : ∀ o cov, Worked S e s o cov → NoFileError S o)
    (h : ending S e s d = (.ok (), d')) :
    ∃ o cov full pwa shown covs, Worked S e s o cov ∧
      (∀ f, Names e.savefile f → fullText S o = .ok full) ∧ (∀ f, Names e.pwafile f → summary S o = .ok pwa) ∧
      (∀ f, (Names e.pwafile f → d'.disk f = some pwa) ∧ (¬ Names e.pwafile f → Names e.savefile f → d'.disk f = some full) ∧
        (¬ Names e.pwafile f → ¬ Names e.savefile f → d'.disk f = d.disk f)) ∧
      S.showObj o = .ok shown ∧ cov.toList.map S.showCov = covs.map .ok ∧ d'.out = d.out ++ covs ++ [shown] ++ covs := by
  have key : ∀ o cov d0, Worked S e s o cov → reporting S e o cov d0 = (.ok (), d') → 
      ∃ full pwa shown covs,
      (∀ f, Names e.savefile f → fullText S o = .ok full) ∧ (∀ f, Names e.pwafile f → summary S o = .ok pwa) ∧
      (∀ f, (Names e.pwafile f → d'.disk f = some pwa) ∧ (¬ Names e.pwafile f → Names e.savefile f → d'.disk f = some full) ∧
        (¬ Names e.pwafile f → ¬ Names e.savefile f → d'.disk f = d0.disk f)) ∧
      S.showObj o = .ok shown ∧ cov.toList.map S.showCov = covs.map .ok ∧ d'.out = d0.out ++ [shown] ++ covs := by
    intro o cov d0 hw hr
    unfold reporting at hr
    obtain ⟨d1, h1, hr⟩ := then_ok hr
    obtain ⟨d2, h2, hr⟩ := then_ok hr
    obtain ⟨d3, h3, hr⟩ := then_ok hr
    obtain ⟨d4, h4, hr⟩ := then_ok hr
    obtain ⟨e1, -⟩ := c103_handlers_unreachable S e o d0 (hq o cov hw)
    obtain ⟨-, e2⟩ := c103_handlers_unreachable S e o d1 (hq o cov hw)
    rw [e1] at h1
    rw [e2] at h2
    have h5 : d4 = d' := by
      split at hr
      · simp only [Prod.mk.injEq] at hr; exact hr.2
      · simp only [Prod.mk.injEq] at hr; exact hr.2
    subst h5
    obtain ⟨shown, hs1, rfl⟩ := printed_ok h3
    obtain ⟨covs, hc1, hc2⟩ : ∃ covs, cov.toList.map S.showCov = covs.map .ok ∧ d4 = { d2 with out := d2.out ++ [shown] ++ covs } := by
      cases cov with
      | none =>
        simp only [Prod.mk.injEq, true_and] at h4
        exact ⟨[], rfl, by rw [← h4, List.append_nil]⟩
      | some c =>
        obtain ⟨x, hx, hd⟩ := printed_ok h4
        exact ⟨[x], by simp [hx], hd⟩
    subst hc2
    obtain ⟨full, hf1, hf2, hf3⟩ : ∃ full, (∀ f, Names e.savefile f → fullText S o = .ok full) ∧ d1.out = d0.out ∧
        ∀ f, (Names e.savefile f → d1.disk f = some full) ∧ (¬ Names e.savefile f → d1.disk f = d0.disk f) := by
      split at h1
      · rename_i hg
        obtain ⟨x, hx, -, rfl⟩ := written_ok h1
        refine ⟨x, fun _ _ => hx, rfl, fun f => ⟨fun hn => ?_, fun hn => ?_⟩⟩
        · rw [← (names_getD hn).2]; simp
        · simp only
          rw [Function.update_of_ne]
          intro hf
          rw [given_iff, ← hf] at hg
          exact hn hg
      · rename_i hg
        simp only [Prod.mk.injEq, true_and] at h1
        subst h1
        exact ⟨[], fun f hn => absurd (names_getD hn).1 hg, rfl, fun f => ⟨fun hn => absurd (names_getD hn).1 hg, fun _ => rfl⟩⟩
    obtain ⟨pwa, hp1, hp2, hp3⟩ : ∃ pwa, (∀ f, Names e.pwafile f → summary S o = .ok pwa) ∧ d2.out = d1.out ∧
        ∀ f, (Names e.pwafile f → d2.disk f = some pwa) ∧ (¬ Names e.pwafile f → d2.disk f = d1.disk f) := by
      split at h2
      · rename_i hg
        obtain ⟨x, hx, -, rfl⟩ := written_ok h2
        refine ⟨x, fun _ _ => hx, rfl, fun f => ⟨fun hn => ?_, fun hn => ?_⟩⟩
        · rw [← (names_getD hn).2]; simp
        · simp only
          rw [Function.update_of_ne]
          intro hf
          rw [given_iff, ← hf] at hg
          exact hn hg
      · rename_i hg
        simp only [Prod.mk.injEq, true_and] at h2
        subst h2
        exact ⟨[], fun f hn => absurd (names_getD hn).1 hg, rfl, fun f => ⟨fun hn => absurd (names_getD hn).1 hg, fun _ => rfl⟩⟩
    refine ⟨full, pwa, shown, covs, hf1, hp1, fun f => ⟨(hp3 f).1, fun n1 n2 => ?_, fun n1 n2 => ?_⟩, hs1, hc1, ?_⟩
    · exact ((hp3 f).2 n1).trans ((hf3 f).1 n2)
    · exact ((hp3 f).2 n1).trans ((hf3 f).2 n2)
    · simp only [hp2, hf2]
  unfold ending at h
  by_cases hb : e.performextraction = true
  · rw [if_pos hb] at h
    generalize hX : S.extract (S.start s) = X at h
    obtain ⟨u, o⟩ := X
    cases u with
    | error x => simp at h
    | ok c =>
      simp only at h
      obtain ⟨d1, h1, h⟩ := then_ok h
      obtain ⟨x, hx, rfl⟩ := printed_ok h1
      have hw : Worked S e s o (some c) := by
        unfold Worked
        rw [if_pos hb]
        exact ⟨c, hX, rfl⟩
      obtain ⟨full, pwa, shown, covs, k1, k2, k3, k4, k5, k6⟩ := key o (some c) _ hw h
      refine ⟨o, some c, full, pwa, shown, covs, hw, k1, k2, k3, k4, k5, ?_⟩
      have hcov : covs = [x] := by
        simp only [Option.toList_some, List.map_cons, List.map_nil, hx] at k5
        match covs, k5 with
        | [y], k5 => simp only [List.map_cons, List.map_nil, List.cons.injEq, Except.ok.injEq, and_true] at k5; rw [k5]
      rw [k6, hcov]
  · rw [if_neg hb] at h
    have hw : Worked S e s (S.start s) none := by
      unfold Worked
      rw [if_neg hb]
      exact ⟨rfl, rfl⟩
    obtain ⟨full, pwa, shown, covs, k1, k2, k3, k4, k5, k6⟩ := key _ none _ hw h
    refine ⟨_, none, full, pwa, shown, covs, hw, k1, k2, k3, k4, k5, ?_⟩
    have hcov : covs = [] := by
      simp only [Option.toList_none, List.map_nil] at k5
      exact List.map_eq_nil_iff.1 k5.symm
    rw [k6, hcov]
    simp

/-- Every file is as before, or it is one of the two and has one of the two texts. -/
def Whole (S : Session K V Obj Cov) (e : Ending) (o : Obj) (d d' : Desk) : Prop :=
  ∀ f, d'.disk f = d.disk f ∨ ∃ t, d'.disk f = some t ∧
    ((Names e.savefile f ∧ fullText S o = .ok t) ∨ (Names e.pwafile f ∧ summary S o = .ok t))

theorem whole_refl (S : Session K V Obj Cov) (e : Ending) (o : Obj) (d : Desk) : Whole S e o d d := fun _ => Or.inl rfl

theorem whole_then {S : Session K V Obj Cov} {e : Ending} {o : Obj} {d : Desk} {r : Res Unit × Desk} {g : Desk → Res Unit × Desk}
    (h : Whole S e o d r.2) (hg : ∀ d, Whole S e o d (g d).2) : Whole S e o d (then' r g).2 := by
  obtain ⟨u, d1⟩ := r
  cases u with
  | error x => exact h
  | ok u =>
    intro f
    rcases hg d1 f with k | k
    · rcases h f with m | ⟨t, m1, m2⟩
      · exact Or.inl (k.trans m)
      · exact Or.inr ⟨t, k.trans m1, m2⟩
    · exact Or.inr k

theorem whole_printed (S : Session K V Obj Cov) (e : Ending) (o : Obj) (t : Res (List Char)) (d : Desk) :
    Whole S e o d (printed t d).2 := by
  cases t <;> exact fun _ => Or.inl rfl

theorem caught_disk (S : Session K V Obj Cov) (msg : List Char) (r : Res Unit × Desk) : (caught S msg r).2.disk = r.2.disk := by
  obtain ⟨u, d⟩ := r
  cases u with
  | error x => unfold caught; simp only; split <;> rfl
  | ok u => rfl

theorem written_disk (S : Session K V Obj Cov) (file : List Char) (t : Res (List Char)) (d : Desk) (f : List Char) :
    (written S file t d).2.disk f = d.disk f ∨ ∃ x, f = file ∧ t = .ok x ∧ (written S file t d).2.disk f = some x := by
  cases t with
  | error x => exact Or.inl rfl
  | ok x =>
    unfold written
    simp only
    split
    · by_cases hf : f = file
      · subst hf; exact Or.inr ⟨x, rfl, rfl, by simp⟩
      · left; simp only; rw [Function.update_of_ne hf]
    · exact Or.inl rfl

theorem whole_saving (S : Session K V Obj Cov) (e : Ending) (o : Obj) (d : Desk) : Whole S e o d (saving S e o d).2 := by
  intro f
  unfold saving
  split
  · rename_i hg
    rw [caught_disk]
    rcases written_disk S (e.savefile.getD []) (fullText S o) d f with h | ⟨x, hf, ht, h⟩
    · exact Or.inl h
    · exact Or.inr ⟨x, h, Or.inl ⟨by rw [hf]; exact (given_iff _).1 hg, ht⟩⟩
  · exact Or.inl rfl

theorem whole_summing (S : Session K V Obj Cov) (e : Ending) (o : Obj) (d : Desk) : Whole S e o d (summing S e o d).2 := by
  intro f
  unfold summing
  split
  · rename_i hg
    rw [caught_disk]
    rcases written_disk S (e.pwafile.getD []) (summary S o) d f with h | ⟨x, hf, ht, h⟩
    · exact Or.inl h
    · exact Or.inr ⟨x, h, Or.inr ⟨by rw [hf]; exact (given_iff _).1 hg, ht⟩⟩
  · exact Or.inl rfl

/-- **C103.** Whatever happens, a file is as before, or it is one that an option names and has the complete text of the object after the
extraction, or the complete summary; and if the extraction raises, every file is as before and nothing is printed. -/
theorem c103_files (S : Session K V Obj Cov) (e : Ending) (s : PPX K) (d : Desk) :
    (∀ f, (ending S e s d).2.disk f = d.disk f ∨ ∃ o cov t, Worked S e s o cov ∧ (ending S e s d).2.disk f = some t ∧
      ((Names e.savefile f ∧ fullText S o = .ok t) ∨ (Names e.pwafile f ∧ summary S o = .ok t))) ∧
    ∀ x o, e.performextraction = true → S.extract (S.start s) = (.error x, o) → ending S e s d = (.error x, d) := by
  have keyw : ∀ o cov, Worked S e s o cov → ∀ d0, Whole S e o d0 (reporting S e o cov d0).2 := by
    intro o cov _ d0
    unfold reporting
    refine whole_then (whole_saving S e o d0) fun d1 => whole_then (whole_summing S e o d1) fun d2 =>
      whole_then (whole_printed S e o _ d2) fun d3 => whole_then ?_ fun d4 => ?_
    · cases cov with
      | none => exact whole_refl S e o d3
      | some c => exact whole_printed S e o _ d3
    · split <;> exact whole_refl S e o d4
  refine ⟨fun f => ?_, fun x o hb hx => ?_⟩
  · unfold ending
    by_cases hb : e.performextraction = true
    · rw [if_pos hb]
      generalize hX : S.extract (S.start s) = X
      obtain ⟨u, o⟩ := X
      cases u with
      | error x => exact Or.inl rfl
      | ok c =>
        have hw : Worked S e s o (some c) := by
          unfold Worked
          rw [if_pos hb]
          exact ⟨c, hX, rfl⟩
        rcases whole_then (whole_printed S e o (S.showCov c) d) (fun d1 => keyw o (some c) hw d1) f with h | ⟨t, h1, h2⟩
        · exact Or.inl h
        · exact Or.inr ⟨o, some c, t, hw, h1, h2⟩
    · rw [if_neg hb]
      have hw : Worked S e s (S.start s) none := by
        unfold Worked
        rw [if_neg hb]
        exact ⟨rfl, rfl⟩
      rcases keyw _ none hw d f with h | ⟨t, h1, h2⟩
      · exact Or.inl h
      · exact Or.inr ⟨_, none, t, hw, h1, h2⟩
  · unfold ending
    rw [if_pos hb, hx]

/-- **C103 (finding).** A successful extraction is lost if the file of `--save` cannot be opened: the program stops with OSError, the summary
is not written and the peaks are not printed. -/
theorem c103_unsaved (S : Session K V Obj Cov) (e : Ending) (s : PPX K) (d : Desk) {o : Obj} {cov : Cov} {t full f : List Char}
    (hb : e.performextraction = true) (hx : S.extract (S.start s) = (.ok cov, o)) (ht : S.showCov cov = .ok t)
    (hf : Names e.savefile f) (hfull : fullText S o = .ok full) (ho : S.openable f = false) :
    ending S e s d = (.error Err.os, { d with out := d.out ++ [t] }) := by
  obtain ⟨g1, g2⟩ := names_getD hf
  unfold ending
  rw [if_pos hb, hx]
  simp only
  rw [ht]
  show then' (saving S e o { d with out := d.out ++ [t] }) _ = _
  unfold saving
  rw [if_pos g1, hfull, g2]
  have : written S f (.ok full) { d with out := d.out ++ [t] } = (.error Err.os, { d with out := d.out ++ [t] }) := by
    unfold written
    simp only
    rw [if_neg (by simp [ho])]
  rw [this]
  unfold caught
  simp only
  rw [if_neg (by decide)]
  rfl

/-- **C103 (finding).** `--pwa` without an extraction ends with SrMiseError before anything is printed. -/
theorem c103_pwa_needs_extraction (S : Session K V Obj Cov) (e : Ending) (s : PPX K) (d d' : Desk) (hb : e.performextraction = false)
    (hn : (S.view (S.start s)).extracted = none) {f : List Char} (hf : Names e.pwafile f) (hs : saving S e (S.start s) d = (.ok (), d')) :
    ending S e s d = (.error Err.srmise, d') := by
  obtain ⟨g1, g2⟩ := names_getD hf
  unfold ending
  rw [if_neg (by simp [hb])]
  unfold reporting
  rw [hs]
  show then' (summing S e (S.start s) d') _ = _
  have : summary S (S.start s) = .error Err.srmise := c89_not_extracted _ _ _ _ hn
  unfold summing
  rw [if_pos g1, this]
  unfold written caught
  simp only
  rw [if_neg (by decide)]
  rfl

/-! ## Instances -/

/-- The object of the example of C89, with metadata. -/
def exDone : Px ℤ := { exPwaPx with metadata := some "qmax=None".toList }

/-- A program whose extraction ends with `exDone`; files whose names begin with `/` cannot be opened. -/
def exSession (x : Res Unit) : Session ℤ ExV (Px ℤ) Unit where
  start := fun _ => {}
  extract := fun _ => (x, exDone)
  view := fun o => o
  python := exPyC
  fmt := exPy.reprNum false
  safe := exPwaSafe
  fnText := fun _ _ => .ok "function='F'\n".toList
  header := []
  pwa := fun _ => exPwa
  showCov := fun _ => .ok "cov".toList
  showObj := fun _ => .ok "obj".toList
  openable := fun f => f.head? != some '/'
  showErr := fun _ => []
  plot := fun _ => .ok ()

/-- No files, nothing printed. -/
def exDesk : Desk := ⟨fun _ => none, []⟩

/-- What is shown of the end of a run. -/
def seenOf (r : Res Unit × Desk) (f g : List Char) : Option Err × List (List Char) × Bool × Bool :=
  (match r.1 with | .error e => some e | .ok _ => none, r.2.out, (r.2.disk f).isSome, (r.2.disk g).isSome)

theorem exSession_quiet (x : Res Unit) (o : Px ℤ) (h : ∀ m, o.extracted = some m → ∀ p ∈ m.model, ∃ i, p.owner = exPeakOwner i) : NoFileError (exSession x) o where
  functions := by intro _ _ hh; cases hh
  quality := by intro hh; cases hh
  formats := by
    intro m hm p hp v i j hh
    obtain ⟨k, hk⟩ := h m hm p hp
    rw [hk] at hh
    cases hh

/-- Both files are written; the covariance is printed twice. -/
example : seenOf (ending (exSession (.ok ())) { savefile := some ['a'], pwafile := some ['b'] } {} exDesk) ['a'] ['b'] =
    (none, ["cov".toList, "obj".toList, "cov".toList], true, true) := by decide +kernel

/-- The file of `--save` cannot be opened. -/
example : seenOf (ending (exSession (.ok ())) { savefile := some ['/', 'a'], pwafile := some ['b'] } {} exDesk) ['/', 'a'] ['b'] =
    (some Err.os, ["cov".toList], false, false) := by decide +kernel

/-- No extraction, or one that raises. -/
example : seenOf (ending (exSession (.ok ())) { performextraction := false, pwafile := some ['b'] } {} exDesk) ['a'] ['b'] = (some Err.srmise, [], false, false) ∧
    seenOf (ending (exSession (.error .value)) { savefile := some ['a'] } {} exDesk) ['a'] ['b'] = (some .value, [], false, false) := by
  decide +kernel

/-- The hypotheses of `c103_success` are met. -/
example : ∃ d', ending (exSession (.ok ())) { savefile := some ['a'], pwafile := some ['b'] } {} exDesk = (.ok (), d') ∧
    ∀ o cov, Worked (exSession (.ok ())) { savefile := some ['a'], pwafile := some ['b'] } {} o cov → NoFileError (exSession (.ok ())) o := by
  refine ⟨(ending (exSession (.ok ())) { savefile := some ['a'], pwafile := some ['b'] } {} exDesk).2, ?_, fun o cov h => ?_⟩
  · have : (ending (exSession (.ok ())) { savefile := some ['a'], pwafile := some ['b'] } {} exDesk).1.toOption = some () := by decide +kernel
    generalize ending (exSession (.ok ())) { savefile := some ['a'], pwafile := some ['b'] } {} exDesk = r at this
    obtain ⟨u, d⟩ := r
    cases u with
    | error e => cases this
    | ok u => rfl
  · obtain ⟨c, hc, -⟩ := h
    cases hc
    apply exSession_quiet
    intro m hm p hp
    cases hm
    simp only [exPwaMc, List.mem_cons, List.not_mem_nil, or_false] at hp
    rcases hp with rfl | rfl <;> exact ⟨_, rfl⟩

end Verif.App
