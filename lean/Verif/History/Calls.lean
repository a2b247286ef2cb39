import Verif.History.Lemmas
import Verif.ModelCluster.Props

/-!
# The effect of one call on result, variables and data (for C90)
-/

namespace Verif.Parts.History

open Verif.Py Verif.PeakList Verif.Extraction Verif.Pdf Verif.Parts.Extract Verif.Parts.ModelCluster Verif.Parts.PdfExtract

set_option linter.unusedSectionVars false

variable {K : Type}

/-! ### Specification -/

/-- The names of the variables that a call may change although they are set. -/
def named : Cmd K → List String
  | .clear => varNames
  | .load _ => varNames
  | .setvars kws => kws.map kwName
  | .defaults names => names
  | _ => []

/-- The calls after which there is no earlier result: they delete it, or replace it. -/
def ends : Cmd K → Bool
  | .clear => true
  | .clearcalc => true
  | .load _ => true
  | .extract => true
  | .fit => true
  | _ => false

/-- The kind of result a call makes. -/
def makes : Cmd K → Option Kind
  | .extract => some .extract
  | .fit => some .fit
  | _ => none

/-- The calls that add peaks to a result. -/
def adds : Cmd K → Bool
  | .add _ => true
  | .estimate _ b => b
  | _ => false

/-- The peaks given to `add_peaks`. -/
def peaksOf : Cmd K → List (Part K)
  | .add ps => ps
  | _ => []

/-- The data of a call that sets them. -/
def dataOf : Cmd K → Option (List K × List K)
  | .load (.ok d) => if d.robs.length = d.gobs.length then some (d.robs, d.gobs) else none
  | .setdata x y _ _ => if x.length = y.length then some (x, y) else none
  | _ => none

/-- The calls after which the data are gone. -/
def forgets : Cmd K → Bool
  | .clear => true
  | .load d => (dataOf (.load d)).isNone
  | _ => false

section

variable [Field K] [LinearOrder K] [IsStrictOrderedRing K]

variable {W : World K} {S : Sampler K} {fq : List K → List K → Option K} {n : ℕ}

/-! ### One call -/

theorem addPeaks_res (has : SortsKeys W.as) (o : Obj K) (ps : List (Part K)) :
    (addPeaks W o ps).2.vars = o.vars ∧
    (o.extracted = none → (addPeaks W o ps).2.extracted = none) ∧
    (∀ c, o.extracted = some c → ∃ m, (addPeaks W o ps).2.extracted = some { c with model := m } ∧ m.Perm (c.model ++ ps)) := by
  unfold addPeaks
  cases h : o.extracted with
  | none =>
    simp only
    cases hi : o.vars.initialPeaks with
    | none => exact ⟨rfl, fun _ => h, fun c hc => by cases hc⟩
    | some ip => exact ⟨rfl, (fun _ => by simp only), fun c hc => by cases hc⟩
  | some c =>
    refine ⟨rfl, (fun hc => by cases hc), ?_⟩
    intro c' hc'
    cases hc'
    obtain ⟨-, h2⟩ := c26_replacepeaks has c.model ps 0 0 (le_refl _) (Nat.zero_le _)
    obtain ⟨-, h4, -⟩ := h2 (by intro i p _ h; omega)
    exact ⟨_, rfl, by simpa using h4⟩

/-- What adding peaks does to the object. -/
structure Added (o o' : PObj K) (ps : List (Part K)) : Prop where
  vars : PFine [] o.vars o'.vars
  kind : o'.kind = o.kind
  none' : o.extracted = none → o'.extracted = none
  some' : ∀ c, o.extracted = some c → ∃ m, o'.extracted = some { c with model := m } ∧ m.Perm (c.model ++ ps)

theorem addTo_spec (has : SortsKeys W.as) (pi : K) (D : Defaults K) (o : PObj K) (ps : List (Part K)) :
    Added o (addTo W pi D o ps).2 ps := by
  unfold addTo
  cases he : o.extracted with
  | none =>
    cases hi : o.vars.base.initialPeaks with
    | none =>
      simp only
      have hg := good_pdefaultvars pi D o.vars
      rcases hd : pdefaultvars pi D o.vars with ⟨e | _, s⟩
      · rw [hd] at hg
        exact ⟨hg, rfl, fun _ => rfl, fun c hc => by rw [he] at hc; cases hc⟩
      · rw [hd] at hg
        exact ⟨hg, rfl, fun _ => rfl, fun c hc => by rw [he] at hc; cases hc⟩
    | some ip =>
      simp only
      obtain ⟨-, h2, -⟩ := addPeaks_res has ⟨o.vars.base, o.heap, none⟩ ps
      exact ⟨PFine.refl _ _, rfl, fun _ => h2 rfl, fun c hc => by rw [he] at hc; cases hc⟩
  | some c =>
    simp only
    obtain ⟨-, -, h3⟩ := addPeaks_res has ⟨o.vars.base, o.heap, some c⟩ ps
    refine ⟨PFine.refl _ _, rfl, (fun h => by rw [he] at h; cases h), ?_⟩
    intro c' hc'
    rw [he] at hc'
    cases hc'
    exact h3 c rfl

theorem estimateIn_spec (has : SortsKeys W.as) (pi : K) (D : Defaults K) (o : PObj K) (v : K) (add : Bool) :
    ∃ ps, Added o (estimateIn W pi D o v add).2 ps ∧ (add = false → (estimateIn W pi D o v add).2.extracted = o.extracted) := by
  unfold estimateIn
  have hg := good_pdefaultvars pi D o.vars
  rcases hd : pdefaultvars pi D o.vars with ⟨e | _, s⟩
  · rw [hd] at hg
    exact ⟨[], ⟨hg, rfl, fun h => h, fun c hc => ⟨c.model, by simpa using hc, by simp⟩⟩, fun _ => rfl⟩
  · rw [hd] at hg
    simp only
    have same : Added o { o with vars := s } [] := ⟨hg, rfl, fun h => h, fun c hc => ⟨c.model, by simpa using hc, by simp⟩⟩
    split
    · exact ⟨[], same, fun _ => rfl⟩
    · exact ⟨[], same, fun _ => rfl⟩
    · rename_i p ps _
      cases add with
      | false => exact ⟨[], same, fun _ => rfl⟩
      | true =>
        have := addTo_spec has pi D { o with vars := s } (p :: ps)
        exact ⟨p :: ps, ⟨PFine.trans hg this.vars, this.kind, this.none', this.some'⟩, fun h => by cases h⟩

/-- What `extract` and `fit` leave. -/
theorem extract_spec (D : Defaults K) (o o' : PObj K) (r : Res Unit) (h : PdfExtract.extract W S D n o = some (r, o')) :
    PFine [] o.vars o'.vars ∧ (r = .ok () → o'.extracted.isSome ∧ o'.kind = some .extract) ∧
      (r ≠ .ok () → o'.extracted = none ∧ o'.kind = none) := by
  unfold PdfExtract.extract at h
  have hg := good_pdefaultvars S.pi D o.vars
  rcases hd : pdefaultvars S.pi D o.vars with ⟨e | _, s⟩
  · rw [hd] at hg h
    simp only [Option.some.injEq, Prod.mk.injEq] at h
    obtain ⟨rfl, rfl⟩ := h
    exact ⟨hg, (fun h => by cases h), fun _ => ⟨rfl, rfl⟩⟩
  · rw [hd] at hg h
    simp only [Option.map_eq_some_iff] at h
    obtain ⟨q, -, h⟩ := h
    unfold leave at h
    rcases q with e | c
    · simp only [Prod.mk.injEq] at h
      obtain ⟨rfl, rfl⟩ := h
      exact ⟨hg, (fun h => by cases h), fun _ => ⟨rfl, rfl⟩⟩
    · simp only [Prod.mk.injEq] at h
      obtain ⟨rfl, rfl⟩ := h
      exact ⟨hg, (fun _ => ⟨rfl, rfl⟩), fun h => absurd rfl h⟩

theorem fitSingle_some (D : Defaults K) (o : Obj K) (h : (fitSingle W D o).1 = .ok ()) : (fitSingle W D o).2.extracted.isSome := by
  revert h
  unfold fitSingle
  split
  · intro h; cases h
  · simp only
    split
    · split
      · intro h; cases h
      · split
        · intro h; cases h
        · intro _; rfl
    · intro h; cases h
    · intro h; cases h

theorem fit_spec (D : Defaults K) (o : PObj K) :
    PFine [] o.vars (PdfExtract.fit W S D o).2.vars ∧
    ((PdfExtract.fit W S D o).1 = .ok () → (PdfExtract.fit W S D o).2.extracted.isSome ∧ (PdfExtract.fit W S D o).2.kind = some .fit) ∧
    ((PdfExtract.fit W S D o).1 ≠ .ok () → (PdfExtract.fit W S D o).2.extracted = none ∧ (PdfExtract.fit W S D o).2.kind = none) := by
  unfold PdfExtract.fit
  have hg := good_pdefaultvars S.pi D o.vars
  rcases hd : pdefaultvars S.pi D o.vars with ⟨e | _, s⟩
  · rw [hd] at hg
    exact ⟨hg, (fun h => by cases h), fun _ => ⟨rfl, rfl⟩⟩
  · rw [hd] at hg
    simp only
    cases fitVars S D s with
    | error e => exact ⟨hg, (fun h => by cases h), fun _ => ⟨rfl, rfl⟩⟩
    | ok t =>
      simp only
      have := fitSingle_some (W := W) D ⟨t, o.heap, none⟩
      rcases hf : fitSingle W D ⟨t, o.heap, none⟩ with ⟨e | _, i⟩
      · exact ⟨hg, (fun h => by cases h), fun _ => ⟨rfl, rfl⟩⟩
      · rw [hf] at this
        exact ⟨hg, (fun _ => ⟨this rfl, rfl⟩), fun h => absurd rfl h⟩

/-- The effect of one call on the result. -/
theorem call_result (has : SortsKeys W.as) (c : Call K) (o o' : PObj K) (r : Res Unit)
    (h : doCall W S fq n c o = some (r, o')) :
    (makes c.cmd ≠ none → r = .ok () → o'.extracted.isSome ∧ o'.kind = makes c.cmd) ∧
    (ends c.cmd = true → (makes c.cmd = none ∨ r ≠ .ok ()) → o'.extracted = none ∧ o'.kind = none) ∧
    (ends c.cmd = false → o'.kind = o.kind ∧ (o.extracted = none → o'.extracted = none) ∧
      (adds c.cmd = false → o'.extracted = o.extracted) ∧
      ∀ m, o.extracted = some m → ∃ p ps, o'.extracted = some { m with model := p } ∧ p.Perm (m.model ++ ps) ∧
        ∀ qs, c.cmd = .add qs → ps = qs) := by
  obtain ⟨cmd, D, after⟩ := c
  unfold doCall at h
  simp only [Option.map_eq_some_iff] at h
  obtain ⟨⟨r', q⟩, hp, hw⟩ := h
  unfold withHeap at hw
  simp only [Prod.mk.injEq] at hw
  obtain ⟨rfl, rfl⟩ := hw
  simp only
  have keep : ∀ (v : PPX K) (H : Heap K), q = { o with vars := v, heap := H } → adds cmd = false →
      (∀ qs, cmd ≠ .add qs) → (({ q with heap := after } : PObj K).kind = o.kind ∧ (o.extracted = none → q.extracted = none) ∧
      (adds cmd = false → q.extracted = o.extracted) ∧
      ∀ m, o.extracted = some m → ∃ p ps, q.extracted = some { m with model := p } ∧ p.Perm (m.model ++ ps) ∧
        ∀ qs, cmd = .add qs → ps = qs) := by
    rintro v H rfl ha hn
    exact ⟨rfl, fun h => h, fun _ => rfl, fun m hm => ⟨m.model, [], hm, by simp, fun qs hqs => absurd hqs (hn qs)⟩⟩
  cases cmd with
  | clear =>
    simp only [perform, Option.some.injEq, Prod.mk.injEq] at hp
    obtain ⟨rfl, rfl⟩ := hp
    exact ⟨fun h => absurd rfl h, fun _ _ => ⟨rfl, rfl⟩, fun h => by cases h⟩
  | clearcalc =>
    simp only [perform, Option.some.injEq, Prod.mk.injEq] at hp
    obtain ⟨rfl, rfl⟩ := hp
    exact ⟨fun h => absurd rfl h, fun _ _ => ⟨rfl, rfl⟩, fun h => by cases h⟩
  | load d =>
    cases d with
    | error e =>
      simp only [perform, Option.some.injEq, Prod.mk.injEq] at hp
      obtain ⟨rfl, rfl⟩ := hp
      exact ⟨fun h => absurd rfl h, fun _ _ => ⟨rfl, rfl⟩, fun h => by cases h⟩
    | ok d =>
      simp only [perform, Option.some.injEq, withVars, Prod.mk.injEq] at hp
      obtain ⟨rfl, rfl⟩ := hp
      exact ⟨fun h => absurd rfl h, fun _ _ => ⟨rfl, rfl⟩, fun h => by cases h⟩
  | setdata x y dx dy =>
    simp only [perform, Option.some.injEq, withVars, Prod.mk.injEq] at hp
    obtain ⟨rfl, hq⟩ := hp
    exact ⟨fun h => absurd rfl h, (fun h => by cases h), fun _ => keep _ _ hq.symm rfl (by simp)⟩
  | setvars kws =>
    simp only [perform, Option.some.injEq, withVars, Prod.mk.injEq] at hp
    obtain ⟨rfl, hq⟩ := hp
    exact ⟨fun h => absurd rfl h, (fun h => by cases h), fun _ => keep _ _ hq.symm rfl (by simp)⟩
  | defaults names =>
    simp only [perform, Option.some.injEq, withVars, Prod.mk.injEq] at hp
    obtain ⟨rfl, hq⟩ := hp
    exact ⟨fun h => absurd rfl h, (fun h => by cases h), fun _ => keep _ _ hq.symm rfl (by simp)⟩
  | extract =>
    simp only [perform] at hp
    obtain ⟨-, h2, h3⟩ := extract_spec D o q r' hp
    refine ⟨fun _ h => h2 h, fun _ h => h3 ?_, fun h => by cases h⟩
    rcases h with h | h
    · cases h
    · exact h
  | fit =>
    simp only [perform, Option.some.injEq] at hp
    obtain ⟨-, h2, h3⟩ := fit_spec (W := W) (S := S) D o
    rw [hp] at h2 h3
    refine ⟨fun _ h => h2 h, fun _ h => h3 ?_, fun h => by cases h⟩
    rcases h with h | h
    · cases h
    · exact h
  | add ps =>
    simp only [perform, Option.some.injEq] at hp
    have := addTo_spec has S.pi D o ps
    rw [hp] at this
    refine ⟨fun h => absurd rfl h, (fun h => by cases h), fun _ => ⟨this.kind, this.none', (fun h => by cases h), ?_⟩⟩
    intro m hm
    obtain ⟨p, h1, h2⟩ := this.some' m hm
    exact ⟨p, ps, h1, h2, fun qs hqs => by cases hqs; rfl⟩
  | estimate v add =>
    simp only [perform, Option.some.injEq] at hp
    obtain ⟨ps, ha, hb⟩ := estimateIn_spec has S.pi D o v add
    rw [hp] at ha hb
    refine ⟨fun h => absurd rfl h, (fun h => by cases h), fun _ => ⟨ha.kind, ha.none', hb, ?_⟩⟩
    intro m hm
    obtain ⟨p, h1, h2⟩ := ha.some' m hm
    exact ⟨p, ps, h1, h2, fun qs hqs => by cases hqs⟩

theorem fine_all {s t : PPX K} : PKept varNames s t := by
  have h : ∀ a ∈ varNames, a ∉ (if "dg" ∈ varNames then "effective_dy" :: varNames else varNames) → False :=
    fun a ha h => h (mem_withDg ha)
  exact ⟨⟨fun n => absurd n (fun n => h "cres" (by decide) n), fun n => absurd n (fun n => h "effective_dy" (by decide) n),
    fun n => absurd n (fun n => h "pf" (by decide) n), fun n => absurd n (fun n => h "rng" (by decide) n),
    fun n => absurd n (fun n => h "baseline" (by decide) n), fun n => absurd n (fun n => h "error_method" (by decide) n),
    fun n => absurd n (fun n => h "initial_peaks" (by decide) n)⟩, fun n => absurd (by decide) n, fun n => absurd (by decide) n,
    fun n => absurd (by decide) n, fun n => absurd (by decide) n⟩

theorem setdata_vars (s : PX K) (x y : List K) (dx dy : Option (List K)) (ex : List String) :
    Kept ex s (Extraction.setdata s x y dx dy).2 := by
  unfold Extraction.setdata
  split
  · exact Kept.refl _ _
  · simp only
    split <;> exact ⟨fun _ _ h => h, fun _ _ h => h, fun _ _ h => h, fun _ _ _ h => h, fun _ _ h => h, fun _ _ h => h, fun _ _ h => h⟩

theorem pdfSetdata_vars (s : PPX K) (x y : List K) (dx dy : Option (List K)) (ex : List String) :
    PKept ex s (pdfSetdata fq s x y dx dy).2 := by
  unfold pdfSetdata
  have := setdata_vars s.base x y dx dy (if "dg" ∈ ex then "effective_dy" :: ex else ex)
  rcases h : Extraction.setdata s.base x y dx dy with ⟨e | _, b⟩ <;> rw [h] at this <;>
    exact ⟨this, fun _ _ h => h, fun _ _ h => h, fun _ _ h => h, fun _ _ h => h⟩

/-- The effect of one call on variables. -/
theorem call_vars (has : SortsKeys W.as) (c : Call K) (o o' : PObj K) (r : Res Unit)
    (h : doCall W S fq n c o = some (r, o')) : PKept (named c.cmd) o.vars o'.vars := by
  obtain ⟨cmd, D, after⟩ := c
  unfold doCall at h
  simp only [Option.map_eq_some_iff] at h
  obtain ⟨⟨r', q⟩, hp, hw⟩ := h
  unfold withHeap at hw
  simp only [Prod.mk.injEq] at hw
  obtain ⟨rfl, rfl⟩ := hw
  cases cmd with
  | clear => exact fine_all
  | load d => exact fine_all
  | clearcalc =>
    simp only [perform, Option.some.injEq, Prod.mk.injEq] at hp
    obtain ⟨rfl, rfl⟩ := hp
    exact PKept.refl _ _
  | setdata x y dx dy =>
    simp only [perform, Option.some.injEq, withVars, Prod.mk.injEq] at hp
    obtain ⟨rfl, rfl⟩ := hp
    exact pdfSetdata_vars _ _ _ _ _ _
  | setvars kws =>
    simp only [perform, Option.some.injEq, withVars, Prod.mk.injEq] at hp
    obtain ⟨rfl, rfl⟩ := hp
    exact (fine_psetvars _ _ _ _).1
  | defaults names =>
    simp only [perform, Option.some.injEq, withVars, Prod.mk.injEq] at hp
    obtain ⟨rfl, rfl⟩ := hp
    exact (good_presetvars _ _ _ _).1
  | extract =>
    simp only [perform] at hp
    exact (extract_spec D o q r' hp).1.1
  | fit =>
    simp only [perform, Option.some.injEq] at hp
    have := (fit_spec (W := W) (S := S) D o).1.1
    rw [hp] at this
    exact this
  | add ps =>
    simp only [perform, Option.some.injEq] at hp
    have := (addTo_spec has S.pi D o ps).vars.1
    rw [hp] at this
    exact this
  | estimate v add =>
    simp only [perform, Option.some.injEq] at hp
    obtain ⟨ps, ha, -⟩ := estimateIn_spec has S.pi D o v add
    rw [hp] at ha
    exact ha.vars.1

theorem setdata_data (s : PX K) (x y : List K) (dx dy : Option (List K)) :
    (x.length = y.length → (Extraction.setdata s x y dx dy).2.x = some x ∧ (Extraction.setdata s x y dx dy).2.y = some y) ∧
    (x.length ≠ y.length → (Extraction.setdata s x y dx dy).2 = s) := by
  unfold Extraction.setdata
  constructor
  · intro h
    rw [if_neg (not_not.2 h)]
    simp only
    split <;> exact ⟨rfl, rfl⟩
  · intro h
    rw [if_pos h]

theorem pdfSetdata_data (s : PPX K) (x y : List K) (dx dy : Option (List K)) :
    (x.length = y.length → (pdfSetdata fq s x y dx dy).2.base.x = some x ∧ (pdfSetdata fq s x y dx dy).2.base.y = some y) ∧
    (x.length ≠ y.length → (pdfSetdata fq s x y dx dy).2 = s) := by
  obtain ⟨h1, h2⟩ := setdata_data s.base x y dx dy
  constructor
  · intro hl
    have := h1 hl
    unfold pdfSetdata
    rcases h : Extraction.setdata s.base x y dx dy with ⟨e | _, b⟩ <;> rw [h] at this <;> exact this
  · intro hl
    have := h2 hl
    have e : (Extraction.setdata s.base x y dx dy).1 = .error .value := by
      unfold Extraction.setdata
      rw [if_pos hl]
    unfold pdfSetdata
    rcases h : Extraction.setdata s.base x y dx dy with ⟨e' | _, b⟩
    · rw [h] at this
      simp only at this
      subst this
      rfl
    · rw [h] at e; cases e

/-- The effect of one call on the data. -/
theorem call_data (has : SortsKeys W.as) (c : Call K) (o o' : PObj K) (r : Res Unit)
    (h : doCall W S fq n c o = some (r, o')) :
    (∀ d, dataOf c.cmd = some d → o'.vars.base.x = some d.1 ∧ o'.vars.base.y = some d.2) ∧
    (forgets c.cmd = true → o'.vars.base.x = none ∧ o'.vars.base.y = none) ∧
    (dataOf c.cmd = none → forgets c.cmd = false → o'.vars.base.x = o.vars.base.x ∧ o'.vars.base.y = o.vars.base.y) := by
  obtain ⟨cmd, D, after⟩ := c
  unfold doCall at h
  simp only [Option.map_eq_some_iff] at h
  obtain ⟨⟨r', q⟩, hp, hw⟩ := h
  unfold withHeap at hw
  simp only [Prod.mk.injEq] at hw
  obtain ⟨rfl, rfl⟩ := hw
  simp only
  cases cmd with
  | clear =>
    simp only [perform, Option.some.injEq, Prod.mk.injEq] at hp
    obtain ⟨rfl, rfl⟩ := hp
    exact ⟨(fun d hd => by cases hd), (fun _ => ⟨rfl, rfl⟩), fun _ h => by cases h⟩
  | load d =>
    cases d with
    | error e =>
      simp only [perform, Option.some.injEq, Prod.mk.injEq] at hp
      obtain ⟨rfl, rfl⟩ := hp
      exact ⟨(fun d hd => by cases hd), (fun _ => ⟨rfl, rfl⟩), fun _ h => by cases h⟩
    | ok d =>
      simp only [perform, Option.some.injEq, withVars, Prod.mk.injEq] at hp
      obtain ⟨rfl, rfl⟩ := hp
      obtain ⟨h1, h2⟩ := pdfSetdata_data (fq := fq) (App.cleared : PPX K) d.robs d.gobs (some d.drobs) (some d.dgobs)
      have hb : (loaded fq d).2.base = (pdfSetdata fq App.cleared d.robs d.gobs (some d.drobs) (some d.dgobs)).2.base := by
        unfold loaded
        rcases pdfSetdata fq App.cleared d.robs d.gobs (some d.drobs) (some d.dgobs) with ⟨e | _, s⟩ <;> rfl
      simp only [hb]
      by_cases hl : d.robs.length = d.gobs.length
      · refine ⟨?_, ?_, ?_⟩
        · intro d' hd'
          simp only [dataOf, if_pos hl, Option.some.injEq] at hd'
          subst hd'
          exact h1 hl
        · intro hf
          simp [forgets, dataOf, hl] at hf
        · intro hd'
          simp [dataOf, hl] at hd'
      · refine ⟨?_, ?_, ?_⟩
        · intro d' hd'
          simp [dataOf, hl] at hd'
        · intro _
          rw [h2 hl]
          exact ⟨rfl, rfl⟩
        · intro _ hf
          simp [forgets, dataOf, hl] at hf
  | clearcalc =>
    simp only [perform, Option.some.injEq, Prod.mk.injEq] at hp
    obtain ⟨rfl, rfl⟩ := hp
    exact ⟨(fun d hd => by cases hd), (fun h => by cases h), fun _ _ => ⟨rfl, rfl⟩⟩
  | setdata x y dx dy =>
    simp only [perform, Option.some.injEq, withVars, Prod.mk.injEq] at hp
    obtain ⟨rfl, rfl⟩ := hp
    obtain ⟨h1, h2⟩ := pdfSetdata_data (fq := fq) o.vars x y dx dy
    by_cases hl : x.length = y.length
    · refine ⟨?_, (fun h => by cases h), ?_⟩
      · intro d' hd'
        simp only [dataOf, if_pos hl, Option.some.injEq] at hd'
        subst hd'
        exact h1 hl
      · intro hd'
        simp [dataOf, hl] at hd'
    · refine ⟨?_, (fun h => by cases h), ?_⟩
      · intro d' hd'
        simp [dataOf, hl] at hd'
      · intro _ _
        simp only [h2 hl]
        exact ⟨trivial, trivial⟩
  | setvars kws =>
    simp only [perform, Option.some.injEq, withVars, Prod.mk.injEq] at hp
    obtain ⟨rfl, rfl⟩ := hp
    have := (fine_psetvars S.pi D o.vars kws).2.1
    exact ⟨(fun d hd => by cases hd), (fun h => by cases h), fun _ _ => ⟨this.x, this.y⟩⟩
  | defaults names =>
    simp only [perform, Option.some.injEq, withVars, Prod.mk.injEq] at hp
    obtain ⟨rfl, rfl⟩ := hp
    have := (good_presetvars S.pi D names o.vars).2.1
    exact ⟨(fun d hd => by cases hd), (fun h => by cases h), fun _ _ => ⟨this.x, this.y⟩⟩
  | extract =>
    simp only [perform] at hp
    have := (extract_spec D o q r' hp).1.2.1
    exact ⟨(fun d hd => by cases hd), (fun h => by cases h), fun _ _ => ⟨this.x, this.y⟩⟩
  | fit =>
    simp only [perform, Option.some.injEq] at hp
    have := (fit_spec (W := W) (S := S) D o).1.2.1
    rw [hp] at this
    exact ⟨(fun d hd => by cases hd), (fun h => by cases h), fun _ _ => ⟨this.x, this.y⟩⟩
  | add ps =>
    simp only [perform, Option.some.injEq] at hp
    have := (addTo_spec has S.pi D o ps).vars.2.1
    rw [hp] at this
    exact ⟨(fun d hd => by cases hd), (fun h => by cases h), fun _ _ => ⟨this.x, this.y⟩⟩
  | estimate v add =>
    simp only [perform, Option.some.injEq] at hp
    obtain ⟨ps, ha, -⟩ := estimateIn_spec has S.pi D o v add
    rw [hp] at ha
    exact ⟨(fun d hd => by cases hd), (fun h => by cases h), fun _ _ => ⟨ha.vars.2.1.x, ha.vars.2.1.y⟩⟩

end

end Verif.Parts.History
