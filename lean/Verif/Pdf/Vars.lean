import Verif.Pdf.VarsModel
import Mathlib.Tactic.Positivity
import Mathlib.Tactic.FieldSimp
import Mathlib.Tactic.NormNum
import Mathlib.Tactic.Linarith

/-!
# C64: extraction variables of `PDFPeakExtraction`; C65: metadata; C66: the Nyquist loop
-/

namespace Verif.Pdf

open Verif.Py Verif.Extraction

set_option linter.unusedSectionVars false

variable {K : Type}

section

variable [Field K] [LinearOrder K]

theorem filter_none (l : List (PKw K)) (h : ∀ k ∈ l, isDg k = false) : l.filter (fun k => !isDg k) = l := by
  rw [List.filter_eq_self]
  intro k hk
  rw [h k hk]; rfl

theorem filterMap_none (l : List (PKw K)) (h : ∀ k ∈ l, isDg k = false) :
    l.filterMap dgToEff = [] := by
  rw [List.filterMap_eq_nil_iff]
  intro k hk
  have := h k hk
  cases k <;> simp_all [isDg, dgToEff]

/-- **C64.** `dg` is an alias of `effective_dy`: giving it once is the same as giving `effective_dy` (last). -/
theorem c64_alias (pi : K) (D : Defaults K) (s : PPX K) (pre post : List (PKw K)) (v : EffDy K)
    (h : ∀ k ∈ pre ++ post, isDg k = false ∧ isEff k = false) :
    psetvars pi D s (pre ++ .dg v :: post) = psetvars pi D s (pre ++ post ++ [.base (.effective_dy v)]) := by
  have hd : ∀ k ∈ pre ++ post, isDg k = false := fun k hk => (h k hk).1
  have he : ∀ k ∈ pre ++ post, isEff k = false := fun k hk => (h k hk).2
  have a1 : (pre ++ .dg v :: post).any isDg = true := by simp [isDg]
  have a2 : (pre ++ .dg v :: post).any isEff = false := by
    rw [List.any_eq_false]
    intro k hk
    rw [List.mem_append, List.mem_cons] at hk
    rcases hk with hk | rfl | hk
    · simp [he k (List.mem_append.2 (Or.inl hk))]
    · simp [isEff]
    · simp [he k (List.mem_append.2 (Or.inr hk))]
  have a3 : (pre ++ post ++ [PKw.base (.effective_dy v)]).any isDg = false := by
    rw [List.any_eq_false]
    intro k hk
    rw [List.mem_append] at hk
    rcases hk with hk | hk
    · simp [hd k hk]
    · simp at hk; subst hk; simp [isDg]
  have m : moveDg (pre ++ .dg v :: post) = pre ++ post ++ [PKw.base (.effective_dy v)] := by
    unfold moveDg
    rw [List.filter_append, List.filter_cons, List.filterMap_append, List.filterMap_cons]
    rw [filter_none pre (fun k hk => hd k (List.mem_append.2 (Or.inl hk))),
      filter_none post (fun k hk => hd k (List.mem_append.2 (Or.inr hk))),
      filterMap_none pre (fun k hk => hd k (List.mem_append.2 (Or.inl hk))),
      filterMap_none post (fun k hk => hd k (List.mem_append.2 (Or.inr hk)))]
    simp [isDg, dgToEff]
  unfold psetvars
  simp only [a1, a2, a3, Bool.and_false, Bool.false_and, Bool.false_eq_true, if_false, if_true, m]

/-- **C64.** The combinations refused up front leave the object unchanged: `dg` together with `effective_dy`
(ValueError), an automatic qmax when none was determined (SrMiseQmaxError), supersampling below 1 (ValueError). -/
theorem c64_refused (pi : K) (D : Defaults K) (s : PPX K) (kws : List (PKw K)) :
    ((∃ v, .dg v ∈ kws) → (∃ v, .base (.effective_dy v) ∈ kws) → psetvars pi D s kws = (.error .value, s)) ∧
    ((∀ v, .dg v ∉ kws) → .qmax .automatic ∈ kws → s.qmaxFromData = none →
      psetvars pi D s kws = (.error .qmax, s)) ∧
    (∀ v, v < 1 → .supersample v ∈ kws → (∀ w, .dg w ∉ kws) → .qmax .automatic ∉ kws →
      psetvars pi D s kws = (.error .value, s)) := by
  have nodg : (∀ v, .dg v ∉ kws) → kws.any isDg = false := by
    intro h
    rw [List.any_eq_false]
    intro k hk
    cases k <;> simp [isDg]
    exact h _ hk
  refine ⟨?_, ?_, ?_⟩
  · rintro ⟨v, hv⟩ ⟨w, hw⟩
    have a : kws.any isDg = true := List.any_eq_true.2 ⟨_, hv, rfl⟩
    have b : kws.any isEff = true := List.any_eq_true.2 ⟨_, hw, rfl⟩
    unfold psetvars
    rw [if_pos (by simp [a, b])]
  · intro hd hq hn
    have a := nodg hd
    unfold psetvars
    simp only [a, Bool.false_and, Bool.false_eq_true, if_false]
    rw [if_pos]
    rw [hn, Option.isNone_none, Bool.and_true, List.any_eq_true]
    exact ⟨_, hq, rfl⟩
  · intro v hv hs hd hq
    have a := nodg hd
    unfold psetvars
    simp only [a, Bool.false_and, Bool.false_eq_true, if_false]
    rw [if_neg, if_pos]
    · rw [List.any_eq_true]
      exact ⟨.supersample v, List.mem_map.2 ⟨_, hs, rfl⟩, by simpa using hv⟩
    · rw [Bool.and_eq_true, List.any_eq_true]
      rintro ⟨⟨k, hk, hk'⟩, -⟩
      match k, hk, hk' with
      | .qmax .automatic, hk, _ => exact hq hk

/-- **C64.** `qmax="automatic"` stands for the value determined from the data. -/
theorem c64_automatic (pi : K) (D : Defaults K) (s : PPX K) (q : K) (hq : s.qmaxFromData = some q) :
    psetvars pi D s [.qmax .automatic] = psetvars pi D s [.qmax (.value (some q))] := by
  simp [psetvars, isDg, hq, resolveQ]

/-- The value of qmax that is used: the one set, else the one reported with the data, else the one determined from
them, else 0. -/
def preferredQmax (s : PPX K) : K :=
  (s.qmax.orElse (fun _ => s.qmaxReported.orElse (fun _ => s.qmaxFromData))).getD 0

variable [IsStrictOrderedRing K]

/-- **C64.** On an object with data (and no baseline left to estimate) `defaultvars` succeeds; qmax is the preferred
one, Nyquist sampling is on exactly when it is positive, scaling is off, supersampling is 4 (the class documents 1),
and the clustering resolution is the Nyquist interval (4 times the mean spacing if qmax is not positive) – each unless
set before. -/
theorem c64_defaults (pi : K) (D : Defaults K) (s : PPX K) (x y dy : List K) (x0 x1 : K)
    (h : HasData s.base x y dy x0 x1) (hb : ∀ f, s.base.baseline ≠ some (.func f)) :
    (pdefaultvars pi D s).1 = .ok () ∧ (pdefaultvars pi D s).2.qmax = some (preferredQmax s) ∧
    (pdefaultvars pi D s).2.nyquist = some (s.nyquist.getD (decide (0 < preferredQmax s))) ∧
    (pdefaultvars pi D s).2.scale = some (s.scale.getD false) ∧
    (pdefaultvars pi D s).2.supersample = some (s.supersample.getD 4) ∧
    (pdefaultvars pi D s).2.base.cres = some (s.base.cres.getD
      (if 0 < preferredQmax s then pi / preferredQmax s else 4 * (x1 - x0) / x.length)) ∧
    (pdefaultvars pi D s).2.base.pf = some (s.base.pf.getD (D.gaussianOverR (7 / 10))) ∧
    (pdefaultvars pi D s).2.base.rng =
      some (some ((s.base.rng.bind Prod.fst).getD x0), some ((s.base.rng.bind Prod.snd).getD x1)) ∧
    (pdefaultvars pi D s).2.qmaxReported = s.qmaxReported ∧ (pdefaultvars pi D s).2.qmaxFromData = s.qmaxFromData ∧
    (pdefaultvars pi D s).2.base.x = some x ∧ (pdefaultvars pi D s).2.base.y = some y := by
  have hq : chooseQmax s = preferredQmax s := by
    unfold preferredQmax chooseQmax
    cases s.qmax <;> cases s.qmaxReported <;> cases s.qmaxFromData <;> rfl
  obtain ⟨e, -, hd⟩ := c63_defaults D
    { s.base with
      cres := chooseCres pi (preferredQmax s) s.base.cres
      pf := some (s.base.pf.getD (D.gaussianOverR (7 / 10))) } x y dy x0 x1
    ⟨h.hx, h.hy, h.hdy, h.leny, h.lendy, h.first, h.last, h.wide⟩ hb
  unfold pdefaultvars
  rw [hq]
  simp only at hd ⊢
  rw [hd]
  refine ⟨rfl, by trivial, by trivial, by trivial, by trivial, ?_, by simp, rfl, by trivial, by trivial, h.hx, h.hy⟩
  cases s.base.cres with
  | some c => rfl
  | none =>
    simp only [Option.getD_none, chooseCres]
    by_cases hp : 0 < preferredQmax s
    · rw [if_pos hp, if_pos hp]; rfl
    · rw [if_neg hp, if_neg hp]; rfl

end

/-- Instances: the reported qmax is preferred; refused combinations; the alias. -/
example : (pdefaultvars 3 exD { base := exPX, qmaxReported := some 10, qmaxFromData := some 9 }).2.qmax = some 10 ∧
    (pdefaultvars 3 exD { base := exPX, qmaxReported := some 10 }).2.base.cres = some (3 / 10) ∧
    (psetvars 3 exD { base := exPX } [.dg (.scalar 1), .base (.effective_dy (.scalar 1))]).1 = .error .value ∧
    (psetvars 3 exD { base := exPX } [.qmax .automatic]).1 = .error .qmax ∧
    (psetvars 3 exD { base := exPX } [.supersample (1 / 2)]).1 = .error .value ∧
    (psetvars 3 exD { base := exPX } [.dg (.scalar 1), .nyquist (some true)]).2.base.effdy = .array [1, 1, 1] := by
  decide +kernel

/-! ### C65 -/

theorem splitLines_line (l rest : List Char) (h : '\n' ∉ l) :
    splitLines (l ++ '\n' :: rest) = l :: splitLines rest := by
  induction l with
  | nil => simp [splitLines]
  | cons c l ih =>
    rw [List.mem_cons, not_or] at h
    rw [List.cons_append, splitLines, if_neg (fun h' => h.1 h'.symm), ih h.2]

theorem splitLines_flatten (ls : List (List Char)) (h : ∀ l ∈ ls, '\n' ∉ l) :
    splitLines ((ls.map (fun l => l ++ ['\n'])).flatten) = ls ++ [[]] := by
  induction ls with
  | nil => rfl
  | cons l ls ih =>
    rw [List.map_cons, List.flatten_cons, List.append_assoc, List.singleton_append,
      splitLines_line l _ (h l List.mem_cons_self), ih (fun l' hl' => h l' (List.mem_cons_of_mem _ hl'))]
    rfl

theorem name_no_newline (f : MetaField) : '\n' ∉ f.name ++ ['='] := by
  cases f <;> decide

theorem prefix_iff (f g : MetaField) (t : List Char) :
    (f.name ++ ['=']).isPrefixOf (g.name ++ '=' :: t) = decide (f = g) := by
  cases f <;> cases g <;> rfl

/-- **C65.** Reading what was written restores all fields, for every object whose field values have one-line
representations that evaluate back to them (the previous content of the reading object does not matter). -/
theorem c65_roundtrip {V : Type} (repr : V → List Char) (ev : List Char → Res V) (v cur : MetaField → V)
    (h1 : ∀ f, '\n' ∉ repr (v f)) (h2 : ∀ f, ev (repr (v f)) = .ok (v f)) :
    readMeta ev (writeMeta repr v) MetaField.all cur = (.ok (), v) := by
  have hl : splitLines (writeMeta repr v) = MetaField.all.map (fun f => f.name ++ '=' :: repr (v f)) ++ [[]] := by
    have := splitLines_flatten (MetaField.all.map (fun f => f.name ++ '=' :: repr (v f))) (by
      intro l hl
      obtain ⟨f, -, rfl⟩ := List.mem_map.1 hl
      intro hm
      rw [show f.name ++ '=' :: repr (v f) = (f.name ++ ['=']) ++ repr (v f) by simp, List.mem_append] at hm
      rcases hm with hm | hm
      · exact name_no_newline f hm
      · exact h1 f hm)
    rw [← this, List.map_map]
    rfl
  have hs : ∀ f, searchField f.name (writeMeta repr v) = some (repr (v f)) := by
    intro f
    unfold searchField
    rw [hl, List.findSome?_append, List.findSome?_map]
    have e : ((fun l => if (f.name ++ ['=']).isPrefixOf l then some (l.drop (f.name.length + 1)) else none) ∘
        fun g : MetaField => g.name ++ '=' :: repr (v g)) =
        fun g => if f = g then some (repr (v g)) else none := by
      funext g
      simp only [Function.comp, prefix_iff]
      by_cases h : f = g
      · subst h
        simp
      · simp [h]
    rw [e]
    cases f <;> rfl
  unfold MetaField.all
  simp only [readMeta, hs, h2]
  congr 1
  funext g
  cases g <;> rfl

/-- **C65.** A text without one of the fields is refused with SrMiseDataFormatError; the fields before it have
been replaced by then. -/
theorem c65_missing {V : Type} (ev : List Char → Res V) (s : List Char) (pre : List MetaField) (f : MetaField) (post : List MetaField)
    (cur : MetaField → V) (hm : searchField f.name s = none)
    (hp : ∀ g ∈ pre, ∃ t v, searchField g.name s = some t ∧ ev t = .ok v) :
    (readMeta ev s (pre ++ f :: post) cur).1 = .error .dataFormat ∧
    ∀ g, g ∉ pre → (readMeta ev s (pre ++ f :: post) cur).2 g = cur g := by
  induction pre generalizing cur with
  | nil =>
    rw [List.nil_append, readMeta, hm]
    exact ⟨rfl, fun _ _ => rfl⟩
  | cons a pre ih =>
    obtain ⟨t, v, h1, h2⟩ := hp a List.mem_cons_self
    rw [List.cons_append, readMeta, h1]
    simp only [h2]
    obtain ⟨i1, i2⟩ := ih (fun g => if g = a then v else cur g) (fun g hg => hp g (List.mem_cons_of_mem _ hg))
    refine ⟨i1, ?_⟩
    intro g hg
    rw [List.mem_cons, not_or] at hg
    rw [i2 g hg.2, if_neg hg.1]

/-- Instance: values that are their own representation. -/
example : readMeta (fun t => .ok t) (writeMeta id (fun f => f.name)) MetaField.all (fun _ => []) =
    (.ok (), fun f => f.name) :=
  c65_roundtrip id (fun t => .ok t) (fun f => f.name) _ (by intro f; cases f <;> decide) (fun _ => rfl)

example : searchField MetaField.nyquist.name "filename='x'\nqmax=1\n".toList = none ∧
    searchField MetaField.filename.name "filename='x'\nqmax=1\n".toList = some "'x'".toList := by decide

/-! ### C66 -/

section

variable [Field K] [LinearOrder K] [IsStrictOrderedRing K]

/-- **C66.** If a pass does not add free parameters, the Nyquist loop ends after at most as many passes as there
are free parameters (plus one).  The final sampling interval is never above the Nyquist interval, always gives more
sampling intervals than the resulting model has free parameters, and is smaller than the Nyquist interval only if the model entering the last
pass had too many free parameters for it and the pass could not remove any. -/
theorem c66_terminates {M : Type} (npars : M → ℕ) (body : K → M → M) (width nyq : K) (hw : 0 < width) (hn : 0 < nyq)
    (hb : ∀ dr m, npars (body dr m) ≤ npars m) (m : M) :
    ∃ dr m', nyquistLoop npars body width nyq (npars m + 1) m = some (dr, m') ∧ 0 < dr ∧ dr ≤ nyq ∧
      (npars m' : K) < width / dr ∧
      (dr = nyq ∨ (width / nyq ≤ (npars m' : K) ∧ ∃ m0, npars m0 = npars m' ∧ m' = body dr m0)) := by
  have main : ∀ (k : ℕ) (m : M), npars m ≤ k →
      ∃ dr m', nyquistLoop npars body width nyq (k + 1) m = some (dr, m') ∧ 0 < dr ∧ dr ≤ nyq ∧
        (npars m' : K) < width / dr ∧
        (dr = nyq ∨ (width / nyq ≤ (npars m' : K) ∧ ∃ m0, npars m0 = npars m' ∧ m' = body dr m0)) := by
    intro k
    induction k with
    | zero =>
      intro m hm
      have h0 : npars m = 0 := by omega
      have hlt : ¬ width / nyq ≤ ((npars m : ℕ) : K) := by
        rw [h0, Nat.cast_zero, not_le]; positivity
      unfold nyquistLoop
      simp only [if_neg hlt]
      refine ⟨nyq, _, if_pos trivial, hn, le_rfl, ?_, Or.inl rfl⟩
      have := hb nyq m
      rw [show npars (body nyq m) = 0 by omega, Nat.cast_zero]
      positivity
    | succ k ih =>
      intro m hm
      by_cases hc : width / nyq ≤ ((npars m : ℕ) : K)
      · have htot : (0 : K) < ((npars m : ℕ) : K) := lt_of_lt_of_le (by positivity) hc
        have hd : 9999 / 10000 * width / ((npars m : ℕ) : K) < nyq := by
          rw [div_lt_iff₀ htot]
          rw [div_le_iff₀ hn] at hc
          linarith
        have hd0 : 0 < 9999 / 10000 * width / ((npars m : ℕ) : K) := by positivity
        unfold nyquistLoop
        simp only [if_pos hc]
        rw [if_neg hd.ne]
        by_cases he : npars (body (9999 / 10000 * width / ((npars m : ℕ) : K)) m) = npars m
        · rw [if_pos he]
          refine ⟨_, _, rfl, hd0, hd.le, ?_, Or.inr ⟨by rw [he]; exact hc, m, he.symm, rfl⟩⟩
          rw [he, lt_div_iff₀ hd0]
          rw [mul_div_cancel₀ _ htot.ne']
          linarith
        · rw [if_neg he]
          have := hb (9999 / 10000 * width / ((npars m : ℕ) : K)) m
          exact ih _ (by omega)
      · unfold nyquistLoop
        simp only [if_neg hc]
        refine ⟨nyq, _, if_pos trivial, hn, le_rfl, ?_, Or.inl rfl⟩
        have h1 : ((npars (body nyq m) : ℕ) : K) ≤ ((npars m : ℕ) : K) := by exact_mod_cast hb nyq m
        exact lt_of_le_of_lt h1 (not_le.1 hc)
  exact main _ m le_rfl

end

/-- Instance: models are their numbers of parameters, each pass removes one while more than 3 are left; from 10
parameters with room for 5 the loop ends at the Nyquist interval. -/
example : (∀ (_ : ℚ) (m : ℕ), id (if 3 < m then m - 1 else m) ≤ id m) ∧
    nyquistLoop (K := ℚ) id (fun _ m => if 3 < m then m - 1 else m) 5 1 11 10 = some (1, 3) := by
  constructor
  · intro dr m; simp only [id]; split <;> omega
  · decide +kernel

/-- **C66.** The assumption is needed: if a pass could add parameters again (as `fit` does on a model that lost
all its peaks), the loop could run for ever. -/
theorem c66_assumption_needed : ∃ body : ℚ → ℕ → ℕ, ∀ fuel, nyquistLoop id body 2 1 fuel 2 = none := by
  refine ⟨fun _ m => if m = 2 then 5 else 2, ?_⟩
  have key : ∀ fuel, nyquistLoop (K := ℚ) id (fun _ m => if m = 2 then 5 else 2) 2 1 fuel 2 = none ∧
      nyquistLoop (K := ℚ) id (fun _ m => if m = 2 then 5 else 2) 2 1 fuel 5 = none := by
    intro fuel
    induction fuel with
    | zero => exact ⟨rfl, rfl⟩
    | succ f ih =>
      constructor
      · unfold nyquistLoop
        norm_num
        exact ih.2
      · unfold nyquistLoop
        norm_num
        exact ih.1
  exact fun fuel => (key fuel).1

end Verif.Pdf
