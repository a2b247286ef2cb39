import Verif.History.Kept

/-!
# Lemmas about one call
-/

namespace Verif.Parts.History

open Verif.Py Verif.Extraction Verif.Pdf Verif.Parts.Extract Verif.Parts.ModelCluster Verif.Parts.PdfExtract

set_option linter.unusedSectionVars false

variable {K : Type}

/-- The name of a keyword argument. -/
def kwName : PKw K → String
  | .base (.effective_dy _) => "effective_dy"
  | .base (.rng _) => "rng"
  | .base (.pf _) => "pf"
  | .base (.initial_peaks _) => "initial_peaks"
  | .base (.baseline _) => "baseline"
  | .base (.cres _) => "cres"
  | .base (.error_method _) => "error_method"
  | .base (.other n) => n
  | .dg _ => "dg"
  | .qmax _ => "qmax"
  | .nyquist _ => "nyquist"
  | .scale _ => "scale"
  | .supersample _ => "supersample"

/-- What setting variables keeps: all but the named ones, the data, the values of qmax reported and found. -/
def PFine (ex : List String) (s t : PPX K) : Prop :=
  PKept ex s t ∧ SameData s.base t.base ∧ t.qmaxReported = s.qmaxReported ∧ t.qmaxFromData = s.qmaxFromData

theorem PFine.refl (ex : List String) (s : PPX K) : PFine ex s s := ⟨PKept.refl _ _, SameData.refl _, rfl, rfl⟩

theorem PFine.trans {ex : List String} {s t u : PPX K} (h : PFine ex s t) (h' : PFine ex t u) : PFine ex s u :=
  ⟨h.1.trans h'.1, h.2.1.trans h'.2.1, h'.2.2.1.trans h.2.2.1, h'.2.2.2.trans h.2.2.2⟩

theorem PFine.mono {ex ex' : List String} {s t : PPX K} (hs : ex ⊆ ex') (h : PFine ex s t) : PFine ex' s t :=
  ⟨h.1.mono hs, h.2⟩

theorem mem_withDg {ex : List String} {a : String} (h : a ∈ ex) : a ∈ (if "dg" ∈ ex then "effective_dy" :: ex else ex) := by
  split
  · exact List.mem_cons_of_mem _ h
  · exact h

theorem fine_psetOne (ex : List String) (s t : PPX K) (k : PKw K) (h : psetOne s k = some t)
    (hn : kwName k ∈ (if "dg" ∈ ex then "effective_dy" :: ex else ex)) (hq : ∀ q, k = .qmax q → "qmax" ∈ ex)
    (hy : ∀ q, k = .nyquist q → "nyquist" ∈ ex) (hs : ∀ q, k = .scale q → "scale" ∈ ex)
    (hss : ∀ q, k = .supersample q → "supersample" ∈ ex) : PFine ex s t := by
  cases k with
  | base b =>
    cases b with
    | other n => simp [psetOne, setOne] at h
    | effective_dy v =>
      simp only [psetOne, setOne, Option.map_some, Option.some.injEq] at h
      subst h
      exact ⟨⟨⟨fun _ _ h => h, fun n _ _ => absurd hn n, fun _ _ h => h, fun _ _ _ h => h, fun _ _ h => h, fun _ _ h => h, fun _ _ h => h⟩,
        fun _ _ h => h, fun _ _ h => h, fun _ _ h => h, fun _ _ h => h⟩, ⟨rfl, rfl, rfl, rfl⟩, rfl, rfl⟩
    | rng v =>
      simp only [psetOne, setOne, Option.map_some, Option.some.injEq] at h
      subst h
      exact ⟨⟨⟨fun _ _ h => h, fun _ _ h => h, fun _ _ h => h, fun n _ _ _ => absurd hn n, fun _ _ h => h, fun _ _ h => h, fun _ _ h => h⟩,
        fun _ _ h => h, fun _ _ h => h, fun _ _ h => h, fun _ _ h => h⟩, ⟨rfl, rfl, rfl, rfl⟩, rfl, rfl⟩
    | pf v =>
      simp only [psetOne, setOne, Option.map_some, Option.some.injEq] at h
      subst h
      exact ⟨⟨⟨fun _ _ h => h, fun _ _ h => h, fun n _ _ => absurd hn n, fun _ _ _ h => h, fun _ _ h => h, fun _ _ h => h, fun _ _ h => h⟩,
        fun _ _ h => h, fun _ _ h => h, fun _ _ h => h, fun _ _ h => h⟩, ⟨rfl, rfl, rfl, rfl⟩, rfl, rfl⟩
    | initial_peaks v =>
      simp only [psetOne, setOne, Option.map_some, Option.some.injEq] at h
      subst h
      exact ⟨⟨⟨fun _ _ h => h, fun _ _ h => h, fun _ _ h => h, fun _ _ _ h => h, fun _ _ h => h, fun _ _ h => h, fun n _ _ => absurd hn n⟩,
        fun _ _ h => h, fun _ _ h => h, fun _ _ h => h, fun _ _ h => h⟩, ⟨rfl, rfl, rfl, rfl⟩, rfl, rfl⟩
    | baseline v =>
      simp only [psetOne, setOne, Option.map_some, Option.some.injEq] at h
      subst h
      exact ⟨⟨⟨fun _ _ h => h, fun _ _ h => h, fun _ _ h => h, fun _ _ _ h => h, fun n _ _ => absurd hn n, fun _ _ h => h, fun _ _ h => h⟩,
        fun _ _ h => h, fun _ _ h => h, fun _ _ h => h, fun _ _ h => h⟩, ⟨rfl, rfl, rfl, rfl⟩, rfl, rfl⟩
    | cres v =>
      simp only [psetOne, setOne, Option.map_some, Option.some.injEq] at h
      subst h
      exact ⟨⟨⟨fun n _ _ => absurd hn n, fun _ _ h => h, fun _ _ h => h, fun _ _ _ h => h, fun _ _ h => h, fun _ _ h => h, fun _ _ h => h⟩,
        fun _ _ h => h, fun _ _ h => h, fun _ _ h => h, fun _ _ h => h⟩, ⟨rfl, rfl, rfl, rfl⟩, rfl, rfl⟩
    | error_method v =>
      simp only [psetOne, setOne, Option.map_some, Option.some.injEq] at h
      subst h
      exact ⟨⟨⟨fun _ _ h => h, fun _ _ h => h, fun _ _ h => h, fun _ _ _ h => h, fun _ _ h => h, fun n _ _ => absurd hn n, fun _ _ h => h⟩,
        fun _ _ h => h, fun _ _ h => h, fun _ _ h => h, fun _ _ h => h⟩, ⟨rfl, rfl, rfl, rfl⟩, rfl, rfl⟩
  | dg v => simp [psetOne] at h
  | qmax v =>
    have := hq v rfl
    cases v with
    | automatic =>
      simp only [psetOne, Option.some.injEq] at h
      subst h
      exact PFine.refl _ _
    | value v =>
      simp only [psetOne, Option.some.injEq] at h
      subst h
      exact ⟨⟨Kept.refl _ _, fun n _ _ => absurd this n, fun _ _ h => h, fun _ _ h => h, fun _ _ h => h⟩, SameData.refl _, rfl, rfl⟩
  | nyquist v =>
    have := hy v rfl
    simp only [psetOne, Option.some.injEq] at h
    subst h
    exact ⟨⟨Kept.refl _ _, fun _ _ h => h, fun n _ _ => absurd this n, fun _ _ h => h, fun _ _ h => h⟩, SameData.refl _, rfl, rfl⟩
  | scale v =>
    have := hs v rfl
    simp only [psetOne, Option.some.injEq] at h
    subst h
    exact ⟨⟨Kept.refl _ _, fun _ _ h => h, fun _ _ h => h, fun n _ _ => absurd this n, fun _ _ h => h⟩, SameData.refl _, rfl, rfl⟩
  | supersample v =>
    have := hss v rfl
    simp only [psetOne, Option.some.injEq] at h
    subst h
    exact ⟨⟨Kept.refl _ _, fun _ _ h => h, fun _ _ h => h, fun _ _ h => h, fun n _ _ => absurd this n⟩, SameData.refl _, rfl, rfl⟩

/-- A keyword argument is covered by a list of names. -/
def Covers (ex : List String) (k : PKw K) : Prop :=
  kwName k ∈ (if "dg" ∈ ex then "effective_dy" :: ex else ex) ∧ (∀ q, k = .qmax q → "qmax" ∈ ex) ∧
    (∀ q, k = .nyquist q → "nyquist" ∈ ex) ∧ (∀ q, k = .scale q → "scale" ∈ ex) ∧ (∀ q, k = .supersample q → "supersample" ∈ ex)

theorem covers_of_name {ex : List String} {k : PKw K} (h : kwName k ∈ ex) : Covers ex k := by
  refine ⟨mem_withDg h, ?_, ?_, ?_, ?_⟩ <;> rintro q rfl <;> exact h

theorem fine_psetLoop (ex : List String) (kws : List (PKw K)) (s : PPX K) (h : ∀ k ∈ kws, Covers ex k) :
    PFine ex s (psetLoop kws s).2 := by
  induction kws generalizing s with
  | nil => exact PFine.refl _ _
  | cons k ks ih =>
    unfold psetLoop
    cases hp : psetOne s k with
    | none => exact PFine.refl _ _
    | some t =>
      obtain ⟨h1, h2, h3, h4, h5⟩ := h k List.mem_cons_self
      exact (fine_psetOne ex s t k hp h1 h2 h3 h4 h5).trans (ih t (fun k' hk' => h k' (List.mem_cons_of_mem _ hk')))

theorem covers_move {kws : List (PKw K)} : ∀ k ∈ moveDg kws, Covers (kws.map kwName) k := by
  intro k hk
  unfold moveDg at hk
  rcases List.mem_append.1 hk with hk | hk
  · exact covers_of_name (List.mem_map_of_mem (List.mem_of_mem_filter hk))
  · obtain ⟨k', hk', e⟩ := List.mem_filterMap.1 hk
    cases k' with
    | dg v =>
      simp only [dgToEff, Option.some.injEq] at e
      subst e
      have : "dg" ∈ kws.map kwName := List.mem_map.2 ⟨_, hk', rfl⟩
      refine ⟨?_, ?_, ?_, ?_, ?_⟩
      · rw [if_pos this]; exact List.mem_cons_self
      all_goals intro q hq; cases hq
    | _ => simp [dgToEff] at e

theorem covers_resolve {ex : List String} {v : Option K} {k : PKw K} (h : Covers ex k) : Covers ex (resolveQ v k) := by
  obtain ⟨h1, h2, h3, h4, h5⟩ := h
  cases k with
  | qmax q =>
    cases q with
    | automatic =>
      refine ⟨mem_withDg (h2 _ rfl), fun _ _ => h2 _ rfl, ?_, ?_, ?_⟩ <;> intro q hq <;> cases hq
    | value w => exact ⟨h1, h2, h3, h4, h5⟩
  | _ => exact ⟨h1, h2, h3, h4, h5⟩

section

variable [Field K] [LinearOrder K] [IsStrictOrderedRing K]

theorem fine_psetvars (pi : K) (D : Defaults K) (s : PPX K) (kws : List (PKw K)) :
    PFine (kws.map kwName) s (psetvars pi D s kws).2 := by
  unfold psetvars
  split
  · exact PFine.refl _ _
  · simp only
    have hc : ∀ k ∈ (if kws.any isDg then moveDg kws else kws), Covers (kws.map kwName) k := by
      split
      · exact covers_move
      · exact fun k hk => covers_of_name (List.mem_map_of_mem hk)
    generalize (if kws.any isDg then moveDg kws else kws) = kws' at hc ⊢
    split
    · exact PFine.refl _ _
    · split
      · exact PFine.refl _ _
      · have hl := fine_psetLoop (kws.map kwName) (kws'.map (resolveQ s.qmaxFromData)) s (by
          intro k hk
          obtain ⟨k', hk', rfl⟩ := List.mem_map.1 hk
          exact covers_resolve (hc k' hk'))
        split
        · rename_i e s' heq
          rw [heq] at hl
          exact hl
        · rename_i s' heq
          rw [heq] at hl
          have := good_pdefaultvars pi D s'
          exact hl.trans (PFine.mono (by simp) this)

end

end Verif.Parts.History
