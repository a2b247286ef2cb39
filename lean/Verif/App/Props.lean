import Verif.App.Lemmas

/-!
# C74, C75: the command line program
-/

namespace Verif.App

open Verif.Py Verif.Extraction Verif.Pdf

set_option linter.unusedSectionVars false

/-! ### C75: parameters on the command line -/

/-- What a parameter on the command line means: `1.5` is a free parameter, `1.5c` a fixed one. -/
inductive Means {K : Type} (float : List Char → Option K) : List Char → K → Bool → Prop
  | free (t : List Char) (v : K) : t ≠ [] → (∀ u, t ≠ u ++ ['c']) → float t = some v → Means float t v true
  | fixed (u : List Char) (v : K) : float u = some v → Means float (u ++ ['c']) v false

/-- **C75.** `parsepars` accepts exactly the texts of which each is a number, or a number with a `c` appended; the
parameters are these numbers in the order given, and exactly those with a `c` are fixed. -/
theorem c75_parsepars {K : Type} (float : List Char → Option K) (ps : List (List Char)) (q : List (K × Bool)) :
    parsepars float ps = .ok (q.map Prod.fst, q.map Prod.snd) ↔
      List.Forall₂ (fun t p => Means float t p.1 p.2) ps q := by
  induction ps generalizing q with
  | nil => cases q <;> simp [parsepars]
  | cons t ts ih =>
    have last : ∀ c, t.getLast? = some c → t = t.dropLast ++ [c] := fun c h => by
      obtain ⟨u, rfl⟩ := List.getLast?_eq_some_iff.1 h
      simp
    constructor
    · intro h
      simp only [parsepars] at h
      cases hc : t.getLast? with
      | none => rw [hc] at h; cases h
      | some c =>
        rw [hc] at h; simp only at h
        cases hf : float (if c = 'c' then t.dropLast else t) with
        | none => rw [hf] at h; cases h
        | some v =>
          rw [hf] at h; simp only at h
          cases hp : parsepars float ts with
          | error e => rw [hp] at h; cases h
          | ok r =>
            obtain ⟨vs, fs⟩ := r
            rw [hp] at h; simp only [Except.ok.injEq, Prod.mk.injEq] at h
            cases q with
            | nil => simp at h
            | cons a q =>
              simp only [List.map_cons, List.cons.injEq] at h
              obtain ⟨⟨h1, h2⟩, h3, h4⟩ := h
              refine List.Forall₂.cons ?_ ((ih q).1 (by rw [hp, h2, h4]))
              rw [← h1, ← h3]
              by_cases hcc : c = 'c'
              · rw [if_pos hcc] at hf
                have := Means.fixed (float := float) t.dropLast v hf
                rw [← hcc, ← last c hc] at this
                simpa [hcc] using this
              · rw [if_neg hcc] at hf
                have hd : decide (c ≠ 'c') = true := by simpa using hcc
                rw [hd]
                refine Means.free t v (by rintro rfl; simp at hc) (fun u hu => ?_) hf
                rw [hu, List.getLast?_append] at hc
                simp only [List.getLast?_singleton, Option.some_or, Option.some.injEq] at hc
                exact hcc hc.symm
    · intro h
      cases h with
      | cons hm hr =>
        rename_i p q
        obtain ⟨v, fr⟩ := p
        have hi := (ih q).2 hr
        simp only at hm
        generalize htt : t = t' at hm
        cases hm with
        | free _ _ hne hno hf =>
          subst htt
          cases hc : t.getLast? with
          | none => exact absurd (List.getLast?_eq_none_iff.1 hc) hne
          | some c =>
            have hcc : c ≠ 'c' := fun e => hno t.dropLast (e ▸ last c hc)
            simp [parsepars, hc, hcc, hf, hi]
        | fixed u _ hf =>
          subst htt
          simp [parsepars, hf, hi]

/-- **C75.** `--bcrystal rho0[c]` is what the help text says, `--bpoly1 -4*pi*rho0[c] 0c`: if the texts `t` and `t'` are
both free or both fixed, and the number in `t'` is −4π times that in `t`, the two options choose the same baseline. -/
theorem c75_bcrystal {K : Type} (E : Env K) (t t' : List Char) (v : K) (fr : Bool) (h : Means E.float t v fr)
    (h' : Means E.float t' (E.crystal v) fr) (h0 : (E.float ['0']).isSome) :
    chooseBaseline E { bcrystal := some t } = chooseBaseline E { bpoly1 := some (t', ['0', 'c']) } := by
  obtain ⟨z, hz⟩ := Option.isSome_iff_exists.1 h0
  have hne : given (some t) = true := by
    cases h with
    | free _ _ hne => simp [given, hne]
    | fixed u => simp [given]
  have hm0 : Means E.float ['0', 'c'] z false := Means.fixed ['0'] z hz
  have e1 := (c75_parsepars E.float [t, ['0', 'c']] [(v, fr), (z, false)]).2
    (List.Forall₂.cons h (List.Forall₂.cons hm0 List.Forall₂.nil))
  have e2 := (c75_parsepars E.float [t', ['0', 'c']] [(E.crystal v, fr), (z, false)]).2
    (List.Forall₂.cons h' (List.Forall₂.cons hm0 List.Forall₂.nil))
  unfold chooseBaseline
  simp only [hne, if_true, Option.getD_some]
  unfold partOf
  rw [e1, e2]
  rfl

/-- The baseline option that counts, and the texts of its parameters: the first given of --bcrystal, --bsrmise, --bpoly0,
--bpoly1, --bpoly2, --bseq, --bspherical, --baseline. -/
inductive Selects {K : Type} (o : Options K) : Made → List (List Char) → Prop
  | poly0 (t : List Char) : given o.bcrystal = false → given o.bsrmise = false → o.bpoly0 = some t → t ≠ [] →
      Selects o (.poly 0) [t]
  | poly1 (a b : List Char) : given o.bcrystal = false → given o.bsrmise = false → given o.bpoly0 = false →
      o.bpoly1 = some (a, b) → Selects o (.poly 1) [a, b]
  | poly2 (a b c : List Char) : given o.bcrystal = false → given o.bsrmise = false → given o.bpoly0 = false →
      o.bpoly1 = none → o.bpoly2 = some (a, b, c) → Selects o (.poly 2) [a, b, c]
  | spherical (a b : List Char) : given o.bcrystal = false → given o.bsrmise = false → given o.bpoly0 = false →
      o.bpoly1 = none → o.bpoly2 = none → given o.bseq = false → o.bspherical = some (a, b) → Selects o .nano [a, b]

/-- **C75.** The baseline is the function of the option that counts, with the parameters of its texts in that order. -/
theorem c75_choice {K : Type} (E : Env K) (o : Options K) (f : Made) (ps : List (List Char)) (q : List (K × Bool))
    (hs : Selects o f ps) (hq : List.Forall₂ (fun t p => Means E.float t p.1 p.2) ps q) :
    chooseBaseline E o = .go (.part f (q.map Prod.fst) (q.map Prod.snd)) ∧ (q.map Prod.fst).length = f.npars (fun _ => 0) := by
  have hp := (c75_parsepars E.float ps q).2 hq
  have hlen := hq.length_eq
  have key : chooseBaseline E o = partOf E f ps := by
    cases hs with
    | poly0 t h1 h2 h3 h4 =>
      have : given (some t) = true := by simp [given, h4]
      simp [chooseBaseline, h1, h2, this, h3]
    | poly1 a b h1 h2 h3 h4 => simp [chooseBaseline, h1, h2, h3, h4]
    | poly2 a b c h1 h2 h3 h4 h5 => simp [chooseBaseline, h1, h2, h3, h4, h5]
    | spherical a b h1 h2 h3 h4 h5 h6 h7 => simp [chooseBaseline, h1, h2, h3, h4, h5, h6, h7]
  rw [key]
  unfold partOf
  rw [hp]
  refine ⟨rfl, ?_⟩
  rw [List.length_map, ← hlen]
  cases hs <;> rfl

/-- A toy `float`: decimal digits only. -/
def exFloat (t : List Char) : Option ℚ :=
  if t.isEmpty || !t.all Char.isDigit then none else some (t.foldl (fun a c => 10 * a + (c.toNat - 48 : ℕ)) 0)

/-- Instances: `12c 7` is a fixed 12 and a free 7; `c` alone is no number; `--bcrystal 2c`. -/
example : parsepars exFloat ["12c".toList, "7".toList] = .ok ([12, 7], [false, true]) ∧
    parsepars exFloat ["c".toList] = .error .value ∧ parsepars exFloat [[]] = .error .index := by decide +kernel

example : Means exFloat "2c".toList 2 false := Means.fixed "2".toList 2 (by decide +kernel)

/-- Instance of `c75_choice`. -/
example : Selects ({ bspherical := some ("12".toList, "7c".toList), baseline := some "x".toList } : Options ℚ) .nano
      ["12".toList, "7c".toList] ∧
    List.Forall₂ (fun t (p : ℚ × Bool) => Means exFloat t p.1 p.2) ["12".toList, "7c".toList] [(12, true), (7, false)] :=
  ⟨.spherical _ _ rfl rfl rfl rfl rfl rfl rfl,
   .cons (.free _ _ (by decide) (by
      intro u hu
      have := congrArg List.getLast? hu
      rw [List.getLast?_append, show ['c'].getLast? = some 'c' from rfl, Option.some_or] at this
      exact absurd this (by decide)) (by decide +kernel)) (.cons (.fixed "7".toList 7 (by decide +kernel)) .nil)⟩

/-! ### C74: the options reach the extraction -/

section

variable {K : Type} [Field K] [LinearOrder K]

theorem not_in_scope : "peaks" ∉ namesInScope ∧ "modelevaluators" ∉ namesInScope := by decide

theorem evalOption_go {name : String} (hn : name ∉ namesInScope) {ev : List Char → Res ℕ} {s : Option (List Char)}
    {r : Option ℕ} (h : evalOption name ev s = .go r) : r = none ∧ given s = false := by
  unfold evalOption at h
  by_cases hg : given s = true
  · rw [if_pos hg, evalAttribute, if_neg hn] at h; cases h
  · rw [if_neg hg] at h
    cases h
    exact ⟨rfl, by simpa using hg⟩

theorem evalOption_exits {name : String} (hn : name ∉ namesInScope) {ev : List Char → Res ℕ} {s : Option (List Char)}
    (hg : given s = true) : evalOption name ev s = .exits := by
  unfold evalOption
  rw [if_pos hg, evalAttribute, if_neg hn]

/-- What a run that reaches the extraction has done. -/
theorem main_ready (W : World K) (o : Options K) (file : List Char) (s' : PPX K) (b : Bool)
    (h : main W o [file] = .ready s' b) :
    b = o.performextraction ∧ given o.peakfunction = false ∧ given o.modelevaluator = false ∧
    ∃ bl s x y eff q, chooseBaseline W.env o = .go bl ∧ load W file = .ok s ∧ s.base.x = some x ∧ s.base.y = some y ∧
      effectiveDy o x y s.base.dy = .ok eff ∧ qmaxArg W.env o = .ok q ∧ (q = some .automatic → s.qmaxFromData ≠ none) ∧
      pdefaultvars W.pi W.defaults (stored o W.other bl W.bid none none eff (resolved s.qmaxFromData q) s) = (.ok (), s') := by
  unfold main at h
  simp only at h
  cases h1 : evalOption "peaks" W.evalPf o.peakfunction with
  | raises e => rw [h1] at h; cases h
  | exits => rw [h1] at h; cases h
  | go pf =>
    obtain ⟨rfl, g1⟩ := evalOption_go not_in_scope.1 h1
    rw [h1] at h; simp only at h
    cases h2 : evalOption "modelevaluators" W.evalMe o.modelevaluator with
    | raises e => rw [h2] at h; cases h
    | exits => rw [h2] at h; cases h
    | go me =>
      obtain ⟨rfl, g2⟩ := evalOption_go not_in_scope.2 h2
      rw [h2] at h; simp only at h
      cases h3 : chooseBaseline W.env o with
      | raises e => rw [h3] at h; cases h
      | exits => rw [h3] at h; cases h
      | go bl =>
        rw [h3] at h; simp only at h
        by_cases hf : file.isEmpty = true
        · rw [if_pos hf] at h; cases h
        · rw [if_neg hf] at h
          cases h4 : load W file with
          | error e => rw [h4] at h; cases h
          | ok s =>
            rw [h4] at h; simp only [configure] at h
            cases hx : s.base.x with
            | none => rw [hx] at h; cases h
            | some x =>
              cases hy : s.base.y with
              | none => rw [hx, hy] at h; cases h
              | some y =>
                rw [hx, hy] at h; simp only [pdict] at h
                cases he : effectiveDy o x y s.base.dy with
                | error e => rw [he] at h; cases h
                | ok eff =>
                  rw [he] at h; simp only at h
                  cases hq : qmaxArg W.env o with
                  | error e => rw [hq] at h; cases h
                  | ok q =>
                    rw [hq] at h; simp only at h
                    change (match psetvars W.pi W.defaults s (dictOf o W.other bl W.bid none none eff q) with
                      | (.error e, _) => Outcome.raises e
                      | (.ok (), s') => .ready s' o.performextraction) = .ready s' b at h
                    cases hp : psetvars W.pi W.defaults s (dictOf o W.other bl W.bid none none eff q) with
                    | mk r t =>
                      rw [hp] at h
                      cases r with
                      | error e => cases h
                      | ok u =>
                        simp only [Outcome.ready.injEq] at h
                        obtain ⟨rfl, rfl⟩ := h
                        obtain ⟨a1, -, a2⟩ := psetvars_dict _ _ _ _ _ _ _ _ _ _ _ _ hp
                        exact ⟨rfl, g1, g2, bl, s, x, y, eff, q, rfl, rfl, hx, hy, he, rfl, a1, a2⟩

theorem pdefault_keeps (pi : K) (D : Defaults K) (s s' : PPX K) (h : pdefaultvars pi D s = (.ok (), s')) :
    s'.qmax = some (chooseQmax s) ∧ s'.nyquist = some (s.nyquist.getD (decide (0 < chooseQmax s))) ∧
    s'.scale = some (s.scale.getD false) ∧ s'.supersample = some (s.supersample.getD 4) ∧
    Keeps s.base s'.base := by
  unfold pdefaultvars at h
  simp only [Prod.mk.injEq] at h
  obtain ⟨-, rfl⟩ := h
  refine ⟨rfl, rfl, rfl, rfl, ?_⟩
  refine Keeps.trans ?_ (keeps_default D _)
  refine ⟨fun c e => ?_, fun _ h => h, fun _ _ h => h, fun _ h => h, fun i e => ?_, fun _ h => h⟩
  · simp [e, chooseCres]
  · simp [e]

theorem nonzero_some {v : K} (h : v ≠ 0) : nonzero (some v) = some v := by
  unfold nonzero
  rw [Option.filter_some, if_pos (by simpa using h)]

/-- **C74.** When the program reaches the extraction, every option that was given, and is not zero or negative
(`--no-…`), has the value the user gave: the range, clustering resolution, supersampling, qmax (from the data if
"automatic"), Nyquist sampling, scaling, a baseline with parameters given on the command line; and peaks are extracted
unless `--no-extract`. -/
theorem c74_options_reach (W : World K) (o : Options K) (file : List Char) (s s' : PPX K) (b : Bool)
    (hl : load W file = .ok s) (h : main W o [file] = .ready s' b) :
    b = o.performextraction ∧
    (∀ c, o.cres = some c → c ≠ 0 → s'.base.cres = some c) ∧
    (∀ a b, o.rng = some (a, b) → s'.base.rng = some (some a, some b)) ∧
    (∀ v, o.supersample = some v → v ≠ 0 → s'.supersample = some v) ∧
    (∀ t v, o.qmax = some t → t ≠ [] → t ≠ "automatic".toList → W.env.float t = some v → s'.qmax = some v) ∧
    (o.qmax = some "automatic".toList → s.qmaxFromData ≠ none ∧ s'.qmax = s.qmaxFromData) ∧
    (o.nyquist = some true → s'.nyquist = some true) ∧
    (o.scale = some true → s'.scale = some true) ∧
    (∀ f pars free i, chooseBaseline W.env o = .go (.part f pars free) → pars ≠ [] → pars.length = f.npars W.other →
      W.bid (.part f pars free) = .inst i → s'.base.baseline = some (.inst i)) := by
  obtain ⟨hb, -, -, bl, s1, x, y, eff, q, hbl, hl1, hx, hy, he, hq, hauto, hp⟩ := main_ready W o file s' b h
  rw [hl] at hl1
  cases hl1
  obtain ⟨k1, k2, k3, k4, k5⟩ := pdefault_keeps _ _ _ _ hp
  refine ⟨hb, ?_, ?_, ?_, ?_, ?_, ?_, ?_, ?_⟩
  · intro c hc hne
    apply k5.cres
    simp only [stored, hc, nonzero_some hne]
  · intro a b hr
    apply k5.rng
    simp [stored, hr]
  · intro v hv hne
    rw [k4]
    simp only [stored, hv, nonzero_some hne, Option.getD_some]
  · intro t v ht hne hna hf
    have hg : given (some t) = true := by simp [given, hne]
    have : q = some (.value (some v)) := by
      unfold qmaxArg at hq
      rw [ht, if_pos hg, if_neg (by simpa using hna)] at hq
      simp only [Option.getD_some, hf, Except.ok.injEq] at hq
      exact hq.symm
    rw [k1, this]
    simp [stored, resolved, chooseQmax]
  · intro ht
    have : q = some .automatic := by
      unfold qmaxArg at hq
      rw [ht, if_pos (by decide), if_pos rfl] at hq
      cases hq; rfl
    have hn := hauto this
    obtain ⟨v, hv⟩ := Option.ne_none_iff_exists'.1 hn
    refine ⟨hn, ?_⟩
    rw [k1, this]
    simp [stored, resolved, chooseQmax, hv]
  · intro hn
    rw [k2]
    simp [stored, hn]
  · intro hn
    rw [k3]
    simp [stored, hn]
  · intro f pars free i hc hne hlen hi
    rw [hbl] at hc
    cases hc
    apply k5.base
    have : Chosen.truthy W.other (.part f pars free : Chosen Made K) = true := by
      simp only [Chosen.truthy, decide_eq_true_eq, ← hlen]
      exact fun e => hne (List.length_eq_zero_iff.1 e)
    simp [stored, this, hi]

/-- The uncertainties as the help text describes them, by mode and value. -/
inductive Uncertainty (x y : List K) (dy : Option (List K)) : DgMode → K → List K → Prop
  | absolute (v : K) : Uncertainty x y dy .absolute v (x.map (fun _ => v))
  | maxFraction (v w : K) : w ∈ y → (∀ u ∈ y, u ≤ w) → Uncertainty x y dy .maxFraction v (x.map (fun _ => v * w))
  | ptpFraction (v hi lo : K) : hi ∈ y → lo ∈ y → (∀ u ∈ y, u ≤ hi ∧ lo ≤ u) →
      Uncertainty x y dy .ptpFraction v (y.map (fun _ => v * (hi - lo)))
  | dGFraction (v : K) (l : List K) : dy = some l → Uncertainty x y dy .dGFraction v (l.map (fun u => v * u))

/-- The mode and value of `--dg-mode` and `--dg`, as the help text describes them: absolute if only `--dg` is given;
without `--dg` the value is 0.05 of the maximum or of the spread, or 1 times the reported uncertainties; with neither, the
reported uncertainties `dy` are used if there are any, else 0.05 of the maximum. -/
inductive Asked (o : Options K) (dy : Option (List K)) : DgMode → K → Prop
  | both (m : DgMode) (v : K) : o.dgMode = some m → o.dg = some v → m ≠ .data → Asked o dy m v
  | dgOnly (v : K) : o.dgMode = none → o.dg = some v → v ≠ 0 → Asked o dy .absolute v
  | maxOnly : o.dgMode = some .maxFraction → o.dg = none → Asked o dy .maxFraction (5 / 100)
  | ptpOnly : o.dgMode = some .ptpFraction → o.dg = none → Asked o dy .ptpFraction (5 / 100)
  | dGOnly : o.dgMode = some .dGFraction → o.dg = none → Asked o dy .dGFraction 1
  | neither : o.dgMode = none → o.dg = none → dy = none → Asked o dy .maxFraction (5 / 100)
  | neitherReported (l : List K) : o.dgMode = none → o.dg = none → dy = some l → Asked o dy .dGFraction 1

theorem foldl_max_spec (l : List K) (a : K) : l.foldl max a ∈ a :: l ∧ ∀ u ∈ a :: l, u ≤ l.foldl max a := by
  induction l generalizing a with
  | nil => simp
  | cons b l ih =>
    obtain ⟨h1, h2⟩ := ih (max a b)
    rw [List.foldl_cons]
    constructor
    · rcases List.mem_cons.1 h1 with h | h
      · rw [h]; rcases max_choice a b with e | e <;> rw [e] <;> simp
      · exact List.mem_cons_of_mem _ (List.mem_cons_of_mem _ h)
    · intro u hu
      have hm := h2 (max a b) List.mem_cons_self
      rcases List.mem_cons.1 hu with rfl | hu
      · exact le_trans (le_max_left _ _) hm
      · rcases List.mem_cons.1 hu with rfl | hu
        · exact le_trans (le_max_right _ _) hm
        · exact h2 u (List.mem_cons_of_mem _ hu)

theorem foldl_min_spec (l : List K) (a : K) : l.foldl min a ∈ a :: l ∧ ∀ u ∈ a :: l, l.foldl min a ≤ u := by
  induction l generalizing a with
  | nil => simp
  | cons b l ih =>
    obtain ⟨h1, h2⟩ := ih (min a b)
    rw [List.foldl_cons]
    constructor
    · rcases List.mem_cons.1 h1 with h | h
      · rw [h]; rcases min_choice a b with e | e <;> rw [e] <;> simp
      · exact List.mem_cons_of_mem _ (List.mem_cons_of_mem _ h)
    · intro u hu
      have hm := h2 (min a b) List.mem_cons_self
      rcases List.mem_cons.1 hu with rfl | hu
      · exact le_trans hm (min_le_left _ _)
      · rcases List.mem_cons.1 hu with rfl | hu
        · exact le_trans hm (min_le_right _ _)
        · exact h2 u (List.mem_cons_of_mem _ hu)

theorem effective_asked (o : Options K) (x y : List K) (dy : Option (List K)) (m : DgMode) (v : K) (eff : Option (List K))
    (ha : Asked o dy m v) (he : effectiveDy o x y dy = .ok eff) : ∃ l, eff = some l ∧ Uncertainty x y dy m v l := by
  have hm : dgMode o dy = m := by
    cases ha <;> simp_all [dgMode]
  have hd : o.dg.or (dgDefault m) = some v := by
    cases ha <;> simp_all [dgDefault]
  have hnd : m ≠ .data := by cases ha <;> simp_all
  unfold effectiveDy at he
  simp only [hm] at he
  rw [hd] at he
  cases m with
  | data => exact absurd rfl hnd
  | absolute => cases he; exact ⟨_, rfl, .absolute v⟩
  | maxFraction =>
    cases y with
    | nil => simp [maxOf, Except.map] at he
    | cons a y =>
      simp only [maxOf, Except.map, Except.ok.injEq] at he
      obtain ⟨h1, h2⟩ := foldl_max_spec y a
      exact ⟨_, he.symm, .maxFraction v _ h1 h2⟩
  | ptpFraction =>
    cases y with
    | nil => simp [spread, Except.map] at he
    | cons a y =>
      simp only [spread, Except.map, Except.ok.injEq] at he
      obtain ⟨h1, h2⟩ := foldl_max_spec y a
      obtain ⟨h3, h4⟩ := foldl_min_spec y a
      exact ⟨_, he.symm, .ptpFraction v _ _ h1 h3 (fun u hu => ⟨h2 u hu, h4 u hu⟩)⟩
  | dGFraction =>
    cases dy with
    | none => cases he
    | some l => cases he; exact ⟨_, rfl, .dGFraction v l rfl⟩

/-- **C74.** The uncertainties used in the extraction are those asked for with `--dg` and `--dg-mode`. -/
theorem c74_uncertainty (W : World K) (o : Options K) (file : List Char) (s s' : PPX K) (b : Bool) (x y : List K)
    (hl : load W file = .ok s) (hx : s.base.x = some x) (hy : s.base.y = some y)
    (h : main W o [file] = .ready s' b) (m : DgMode) (v : K)
    (ha : Asked o s.base.dy m v) :
    ∃ l, Uncertainty x y s.base.dy m v l ∧ s'.base.effdy = .array l := by
  obtain ⟨-, -, -, bl, s1, x', y', eff, q, -, hl1, hx', hy', he, -, -, hp⟩ := main_ready W o file s' b h
  rw [hl] at hl1
  cases hl1
  rw [hx] at hx'; cases hx'
  rw [hy] at hy'; cases hy'
  obtain ⟨l, rfl, hu⟩ := effective_asked o x y s.base.dy m v eff ha he
  refine ⟨l, hu, ?_⟩
  apply (pdefault_keeps _ _ _ _ hp).2.2.2.2.effdy
  rfl

theorem main_congr (W : World K) (o o' : Options K) (args : List (List Char)) (h1 : o.peakfunction = o'.peakfunction)
    (h2 : o.modelevaluator = o'.modelevaluator) (h3 : o.performextraction = o'.performextraction)
    (h4 : chooseBaseline W.env o = chooseBaseline W.env o')
    (h5 : ∀ bl x y dy, pdict W.env o W.other bl W.bid x y dy = pdict W.env o' W.other bl W.bid x y dy) :
    main W o args = main W o' args := by
  unfold main
  rw [h1, h2, h4]
  have hc : configure W o = configure W o' := by
    funext pf me bl s
    unfold configure
    simp only [h3, h5]
  rw [hc]

/-- **C74, finding.** `--no-nyquist`, `--no-scale`, `--cres 0`, `--supersample 0` have no effect at all: the program
behaves as if they had not been given, whatever the other options and the data (for a PDF that reports qmax, Nyquist
sampling stays on). -/
theorem c74_negative_options_ignored (W : World K) (o : Options K) (args : List (List Char)) :
    main W { o with nyquist := some false } args = main W { o with nyquist := none } args ∧
    main W { o with scale := some false } args = main W { o with scale := none } args ∧
    main W { o with cres := some 0 } args = main W { o with cres := none } args ∧
    main W { o with supersample := some 0 } args = main W { o with supersample := none } args := by
  have hz : nonzero (some (0 : K)) = nonzero none := by simp [nonzero]
  refine ⟨main_congr W _ _ args rfl rfl rfl rfl (fun _ _ _ _ => rfl), main_congr W _ _ args rfl rfl rfl rfl (fun _ _ _ _ => rfl),
    main_congr W _ _ args rfl rfl rfl rfl (fun _ _ _ _ => ?_), main_congr W _ _ args rfl rfl rfl rfl (fun _ _ _ _ => ?_)⟩
  · unfold pdict
    simp only [hz]
    rfl
  · unfold pdict
    simp only [hz]
    rfl

/-- **C74, finding.** With `--pf` or `--me` the program never does anything: it prints a message and returns, whatever
peak function or evaluator is asked for, because the packages `peaks` and `modelevaluators` it looks them up in are not
imported. -/
theorem c74_pf_me_never (W : World K) (o : Options K) (file : List Char)
    (h : given o.peakfunction = true ∨ given o.modelevaluator = true) : main W o [file] = .exits := by
  unfold main
  simp only
  by_cases hp : given o.peakfunction = true
  · rw [evalOption_exits not_in_scope.1 hp]
  · have hm : given o.modelevaluator = true := by rcases h with h | h; exact absurd h hp; exact h
    have : evalOption "peaks" W.evalPf o.peakfunction = .go none := by
      unfold evalOption; rw [if_neg hp]
    rw [this]
    simp only
    rw [evalOption_exits not_in_scope.2 hm]

/-- **C74, finding.** `--bseq FILE` has no effect when the file can be read (and no other baseline option precedes it): the
program behaves as if no baseline option had been given, because a baseline without parameters has length zero and so
counts as false. -/
theorem c74_bseq_ignored (W : World K) (o : Options K) (t : List Char) (args : List (List Char)) (ht : t ≠ [])
    (hfile : W.env.sequence t = .ok ())
    (h1 : given o.bcrystal = false) (h2 : given o.bsrmise = false) (h3 : given o.bpoly0 = false)
    (h4 : o.bpoly1 = none) (h5 : o.bpoly2 = none) :
    main W { o with bseq := some t } args = main W { o with bseq := none, bspherical := none, baseline := none } args := by
  have hg : given (some t) = true := by simp [given, ht]
  have e1 : chooseBaseline W.env { o with bseq := some t } = .go (.part (.seq t) [] []) := by
    unfold chooseBaseline
    simp [h1, h2, h3, h4, h5, hg, hfile]
  have e2 : chooseBaseline W.env { o with bseq := none, bspherical := none, baseline := none } = .go .nothing := by
    unfold chooseBaseline
    have hn : given none = false := rfl
    simp [h1, h2, h3, h4, h5, hn]
  have hc : ∀ s, configure W { o with bseq := some t } none none (.part (.seq t) [] []) s =
      configure W { o with bseq := none, bspherical := none, baseline := none } none none .nothing s := fun s => rfl
  unfold main
  rw [e1, e2]
  cases args with
  | nil => rfl
  | cons file rest =>
    cases rest with
    | cons _ _ => rfl
    | nil =>
      simp only
      cases h6 : evalOption "peaks" W.evalPf o.peakfunction with
      | raises e => rfl
      | exits => rfl
      | go pf =>
        obtain ⟨rfl, -⟩ := evalOption_go not_in_scope.1 h6
        simp only
        cases h7 : evalOption "modelevaluators" W.evalMe o.modelevaluator with
        | raises e => rfl
        | exits => rfl
        | go me =>
          obtain ⟨rfl, -⟩ := evalOption_go not_in_scope.2 h7
          simp only [hc]

/-- **C74, finding.** Without `--dg` and `--dg-mode`, on a PDF file without uncertainties, the extraction starts with all
uncertainties zero; documented is 5% of the maximum of the PDF.  (The data set fills the missing column with zeros, so
the test for missing uncertainties is never true.) -/
theorem c74_default_uncertainty [IsStrictOrderedRing K] {T : Type} (W : World K) (o : Options K) (file : List Char) (s' : PPX K) (b : Bool)
    (parse : T → Option K) (infnan : T → Bool) (q0 : K) (lines : List (List T)) (d : DataSet.DS K)
    (hread : ∃ e, W.read file = .error e) (hpdf : W.pdf file = .ok d)
    (hdata : DataSet.readData parse infnan (DataSet.clear q0) lines = (d, none))
    (hmiss : ∃ v ∈ lines, v[3]? = none)
    (hm : o.dgMode = none) (hd : o.dg = none)
    (h : main W o [file] = .ready s' b) :
    s'.base.effdy = .array (List.replicate lines.length 0) := by
  obtain ⟨e0, hread⟩ := hread
  obtain ⟨-, -, -, -, hlen1, hlen2, hlen3, hlen4, -, -, -, hz, -⟩ := DataSet.c47_read parse infnan q0 lines d hdata
  have hzero : d.dgobs = List.replicate lines.length 0 := by
    rw [← hlen4, List.eq_replicate_iff]
    refine ⟨rfl, hz ?_⟩
    intro hu
    obtain ⟨v, hv, hn⟩ := hmiss
    obtain ⟨t, _, ht, _⟩ := hu v hv
    rw [hn] at ht; cases ht
  obtain ⟨-, -, -, bl, s, x, y, eff, q, -, hl, hx, hy, he, -, -, hp⟩ := main_ready W o file s' b h
  have hdy : s.base.dy = some d.dgobs := by
    unfold load at hl
    rw [hread, hpdf] at hl
    simp only [loadpdf, setdata] at hl
    rw [if_neg (by rw [hlen1, hlen2]; exact fun h => h rfl)] at hl
    simp only [Option.getD_some] at hl
    rw [if_neg (by rw [hlen1, hlen3, hlen4]; simp)] at hl
    simp only [Except.ok.injEq] at hl
    rw [← hl]
  have heff : eff = some (List.replicate lines.length 0) := by
    unfold effectiveDy at he
    simp only [dgMode, hm, hd, hdy, Option.any_none, Bool.false_eq_true, if_false, dgDefault] at he
    change (Except.ok (some (d.dgobs.map (fun u => 1 * u))) : Res _) = .ok eff at he
    injection he with he
    rw [← he, hzero]
    simp
  apply (pdefault_keeps _ _ _ _ hp).2.2.2.2.effdy
  simp [stored, heff]

/-- **C74, finding.** The qmax estimated from the data is never the default for a PDF file: the data set always reports
a qmax, 0 if the file has none. -/
theorem c74_qmax_not_estimated (W : World K) (o : Options K) (file : List Char) (s' : PPX K) (b : Bool)
    (d : DataSet.DS K) (hread : ∃ e, W.read file = .error e) (hpdf : W.pdf file = .ok d) (hq : given o.qmax = false)
    (h : main W o [file] = .ready s' b) : s'.qmax = some d.qmax := by
  obtain ⟨e0, hread⟩ := hread
  obtain ⟨-, -, -, bl, s, x, y, eff, q, -, hl, hx, hy, he, hqa, -, hp⟩ := main_ready W o file s' b h
  have hq0 : q = none := by
    unfold qmaxArg at hqa
    rw [hq] at hqa
    cases hqa; rfl
  have hs : s.qmax = none ∧ s.qmaxReported = some d.qmax := by
    unfold load at hl
    rw [hread, hpdf] at hl
    simp only [loadpdf] at hl
    split at hl
    · cases hl
    · rename_i heq
      simp only [Except.ok.injEq] at hl
      split at heq
      · simp at heq
      · simp only [Prod.mk.injEq] at heq
        rw [← hl, ← heq.2]
        exact ⟨rfl, rfl⟩
  rw [(pdefault_keeps _ _ _ _ hp).1, hq0]
  simp [stored, resolved, chooseQmax, hs.1, hs.2]

/-- **C74, finding.** `--dg-mode absolute` without `--dg` ends in an uncaught TypeError (the documented default is
"None"); `--bsrmise` always does. -/
theorem c74_uncaught (W : World K) (o : Options K) (file : List Char) (hf : file ≠ [])
    (h1 : given o.peakfunction = false) (h2 : given o.modelevaluator = false) :
    (given o.bcrystal = false → given o.bsrmise = true → main W o [file] = .raises .type) ∧
    (∀ bl s x y, chooseBaseline W.env o = .go bl → load W file = .ok s → s.base.x = some x → s.base.y = some y →
      o.dgMode = some .absolute → o.dg = none → main W o [file] = .raises .type) := by
  have e1 : evalOption "peaks" W.evalPf o.peakfunction = .go none := by unfold evalOption; rw [h1]; rfl
  have e2 : evalOption "modelevaluators" W.evalMe o.modelevaluator = .go none := by unfold evalOption; rw [h2]; rfl
  have hne : file.isEmpty = false := by simpa using hf
  constructor
  · intro hc hs
    unfold main
    simp only [e1, e2]
    unfold chooseBaseline
    simp [hc, hs]
  · intro bl s x y hbl hl hx hy hm hd
    unfold main
    simp only [e1, e2, hbl, hl, hne, Bool.false_eq_true, if_false, configure, hx, hy]
    have he : effectiveDy o x y s.base.dy = .error .type := by
      unfold effectiveDy
      simp [dgMode, hm, hd, dgDefault]
    unfold pdict
    rw [he]

end

/-! ### A run -/

/-- Two lines of a PDF file without uncertainties; numbers stand for themselves. -/
def exLines : List (List ℚ) := [[1, 5], [2, 7], [3, 6]]

/-- The data set read from them. -/
def exDS : DataSet.DS ℚ := (DataSet.readData (W := ℚ) (fun w => some w) (fun _ => false) (DataSet.clear (1 / 1000)) exLines).1

/-- A world: `read` fails, the PDF file has the lines above; a file "b" with a baseline can be read. -/
def exWorld : World ℚ where
  env := { float := exFloat, crystal := fun v => -12 * v, evalBaseline := fun _ => none, sequence := fun _ => .ok () }
  other := fun _ => 0
  bid := fun c => match c with | .part (.poly 0) _ _ => .inst 50 | .part (.poly 1) _ _ => .inst 51 | _ => .inst 99
  read := fun _ => .error .type
  pdf := fun _ => .ok exDS
  findQmax := fun _ _ => some 20
  evalPf := fun _ => .ok 5
  evalMe := fun _ => .ok 6
  pi := 3
  defaults := exD

/-- What an outcome has of interest. -/
def Outcome.state {K : Type} : Outcome K → Option (PPX K)
  | .ready s _ => some s
  | _ => none

/-- Instance of `c74_options_reach` and `c74_uncertainty`: options that are given arrive. -/
example : let o : Options ℚ := { cres := some (1 / 2), rng := some (1, 2), qmax := some "25".toList, nyquist := some true,
                                 bcrystal := some "2c".toList, dg := some (1 / 10) }
    (main exWorld o ["f".toList]).state = some
      { base := { x := some [1, 2, 3], y := some [5, 7, 6], dx := some [0, 0, 0], dy := some [0, 0, 0],
                  effdy := .array [1 / 10, 1 / 10, 1 / 10], rng := some (some 1, some 2), pf := some 7,
                  initialPeaks := some 3, baseline := some (.inst 51), cres := some (1 / 2), errorMethod := some 2 }
        qmax := some 25, nyquist := some true, scale := some false, supersample := some 4, qmaxReported := some 0,
        qmaxFromData := some 20 } := by decide +kernel

/-- Instance of `c74_default_uncertainty` and `c74_qmax_not_estimated`: all uncertainties are zero, qmax is 0 although it
could be estimated from the data. -/
example : ((main exWorld {} ["f".toList]).state.map (fun s => (s.base.effdy, s.qmax))) =
      some (.array [0, 0, 0], some 0) ∧
    DataSet.readData (W := ℚ) (fun w => some w) (fun _ => false) (DataSet.clear (1 / 1000)) exLines = (exDS, none) := by
  refine ⟨by decide +kernel, rfl⟩

/-- Instance of `c74_bseq_ignored`: the baseline stays at its default. -/
example : (main exWorld { bseq := some "b".toList } ["f".toList]).state.map (fun s => s.base.baseline) =
    some (some (.inst 1)) := by decide +kernel

end Verif.App
