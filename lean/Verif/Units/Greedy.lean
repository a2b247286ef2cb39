import Verif.Units.Basic

/-! # Lemmas for C104: `augment` and `prune` -/

set_option linter.unusedSectionVars false

namespace Verif.Parts.Units

open Verif.Py Verif.PeakList Verif.Parts.ModelCluster Verif.Parts.Extract Verif.Extraction

variable {K : Type} [Field K] [LinearOrder K] [IsStrictOrderedRing K]

variable {u : Change K}

/-- The result of a trial in the new units. -/
def Change.tried (u : Change K) (t : Evaluator.Ev K × List (Part K) × Part K) : Evaluator.Ev K × List (Part K) × Part K :=
  (t.1, u.parts t.2.1, u.part t.2.2)

theorem trial_units (hu : u.Sensible) {E E' : Env K} (h : EnvAlike u E E') (c : Cluster K) (best : List (Part K)) (s : Part K) :
    trial E' (u.cluster c) (u.parts best) (u.part s) = ((trial E c best s).1.map u.tried, u.cluster (trial E c best s).2) := by
  unfold trial
  have e0 : u.parts best ++ [u.part s] = u.parts (best ++ [s]) := (parts_append best [s]).symm
  rw [e0]
  have e1 : ModelCluster.fit E' {} { u.cluster c with model := u.parts (best ++ [s]) } = _ := fit_units hu h {} { c with model := best ++ [s] }
  rw [e1]
  generalize ModelCluster.fit E {} { c with model := best ++ [s] } = R
  obtain ⟨r, c', l⟩ := R
  cases r with
  | error e => rfl
  | ok q =>
    have i1 : (u.cluster c).neverFit = c.neverFit := rfl
    have i2 : E'.quality (u.cluster c').model (u.cluster c').baseline = E.quality c'.model c'.baseline := h.quality _ _
    simp only
    rw [i1, i2, h.lsq]
    have e2 : ((u.parts (E.lsq (best ++ [s])).2).getLast?).getD (u.part s) = u.part (((E.lsq (best ++ [s])).2.getLast?).getD s) := by
      unfold Change.parts
      rw [List.getLast?_map]
      cases (E.lsq (best ++ [s])).2.getLast? <;> rfl
    simp only [e2]
    cases c.neverFit <;> rfl

theorem trials_units (hu : u.Sensible) {E E' : Env K} (h : EnvAlike u E E') (best : List (Part K)) : ∀ (ss : List (Part K)) (c : Cluster K),
    trials E' (u.cluster c) (u.parts best) (u.parts ss) = ((trials E c best ss).1.map (fun l => l.map u.tried), u.cluster (trials E c best ss).2)
  | [], c => rfl
  | s :: ss, c => by
    show trials E' (u.cluster c) (u.parts best) (u.part s :: u.parts ss) = _
    unfold trials
    rw [trial_units hu h]
    generalize trial E c best s = R
    obtain ⟨r, c'⟩ := R
    cases r with
    | error e => rfl
    | ok t =>
      simp only [Except.map]
      rw [trials_units hu h best ss c']
      generalize trials E c' best ss = R
      obtain ⟨r, c''⟩ := R
      cases r <;> rfl

theorem augmentLoop_units (hu : u.Sensible) {E E' : Env K} (h : EnvAlike u E E') {pick pick' : List (Evaluator.Ev K) → ℕ} (hp : ∀ l, pick' l = pick l) :
    ∀ (n : ℕ) (c : Cluster K) (best : List (Part K)) (q : Evaluator.Ev K) (source : List (Part K)),
    augmentLoop E' pick' n (u.cluster c) (u.parts best) q (u.parts source) =
      ((augmentLoop E pick n c best q source).1.map u.parts, u.cluster (augmentLoop E pick n c best q source).2)
  | 0, c, best, q, source => rfl
  | n + 1, c, best, q, source => by
    unfold augmentLoop
    by_cases hs : source = []
    · rw [if_pos hs, if_pos (parts_nil.2 hs)]; rfl
    rw [if_neg hs, if_neg (fun h => hs (parts_nil.1 h)), trials_units hu h]
    generalize trials E c best source = R
    obtain ⟨r, c'⟩ := R
    cases r with
    | error e => rfl
    | ok ts =>
      simp only [Except.map]
      have e1 : (ts.map u.tried).map Prod.fst = ts.map Prod.fst := by rw [List.map_map]; rfl
      have e2 : (ts.map u.tried).map (fun t => t.2.2) = u.parts (ts.map (fun t => t.2.2)) := by unfold Change.parts; rw [List.map_map, List.map_map]; rfl
      rw [e1, e2, hp, List.getElem?_map]
      cases ts[pick (ts.map Prod.fst)]? with
      | none => rfl
      | some t =>
        obtain ⟨q', l, s⟩ := t
        simp only [Option.map_some, Change.tried]
        cases Evaluator.gt q' q with
        | error e => rfl
        | ok b =>
          cases b with
          | false => rfl
          | true =>
            have e3 : (u.parts (ts.map (fun t => t.2.2))).eraseIdx (pick (ts.map Prod.fst)) =
              u.parts ((ts.map (fun t => t.2.2)).eraseIdx (pick (ts.map Prod.fst))) := map_eraseIdx _ _ _
            simp only
            rw [e3]
            exact augmentLoop_units hu h hp n c' l q' _

theorem augment_units (hu : u.Sensible) {E E' : Env K} (h : EnvAlike u E E') {pick pick' : List (Evaluator.Ev K) → ℕ} (hp : ∀ l, pick' l = pick l)
    (c : Cluster K) (source : List (Part K)) :
    augment E' pick' (u.cluster c) (u.parts source) = ((augment E pick c source).1, u.cluster (augment E pick c source).2) := by
  unfold augment
  have i1 : E'.quality (u.cluster c).model (u.cluster c).baseline = E.quality c.model c.baseline := h.quality _ _
  have i2 : (u.cluster c).model = u.parts c.model := rfl
  rw [i1, i2, parts_length, augmentLoop_units hu h hp]
  generalize augmentLoop E pick source.length c c.model (E.quality c.model c.baseline) source = R
  obtain ⟨r, c'⟩ := R
  cases r with
  | error e => rfl
  | ok best =>
    simp only [Except.map]
    have i3 : (u.cluster c').model = u.parts c'.model := rfl
    rw [i3, parts_length, replacepeaks_parts hu h.as]
    generalize replacepeaks E.as c'.model best 0 c'.model.length = R
    obtain ⟨r, m⟩ := R
    cases r with
    | error e => rfl
    | ok r =>
      have e1 : ModelCluster.fit E' {} { u.cluster c' with model := u.parts m } = _ := fit_units hu h {} { c' with model := m }
      simp only
      rw [e1]
      generalize ModelCluster.fit E {} { c' with model := m } = R
      obtain ⟨r, c'', l⟩ := R
      cases r <;> rfl

/-! ### prune -/

/-- `P'` does in the new units what `P` does. -/
structure PruneAlike (u : Change K) (P P' : PruneEnv K) : Prop where
  env : ∀ out, EnvAlike u (P.env out) (P'.env (u.parts out))
  qual : ∀ out m k, P'.qual (u.parts out) (u.parts m) k = P.qual out m k

theorem seg_units (best : List (Part K)) (i : ℕ) : seg (u.parts best) i = u.parts (seg best i) := by
  unfold seg
  rw [parts_length, parts_append]
  unfold Change.parts
  rw [getSlice_map, getSlice_map]

theorem leftOf_units (best : List (Part K)) (i : ℕ) : leftOf (u.parts best) i = u.parts (leftOf best i) := by
  unfold leftOf Change.parts
  rw [List.map_take]

theorem rightOf_units (best : List (Part K)) (i n : ℕ) : rightOf (u.parts best) i n = u.parts (rightOf best i n) := by
  unfold rightOf Change.parts
  rw [List.map_drop]

theorem addpars_units (hu : u.Sensible) (best : List (Part K)) (i : ℕ) : addpars (u.parts best) i = addpars best i := by
  unfold addpars
  rw [seg_units, npars_parts hu, npars_parts hu]
  congr 2
  simp only [Change.parts, List.getElem?_map]
  cases best[i]? with
  | none => rfl
  | some p => simp [part_npars hu]

/-- A check in the new units. -/
def Change.checked (u : Change K) (t : Check K) : Check K := (t.1, t.2.1, u.parts t.2.2)

theorem checkOne_units (hu : u.Sensible) {P P' : PruneEnv K} (h : PruneAlike u P P') (mc : Cluster K) (best : List (Part K)) (i : ℕ) :
    checkOne P' (u.cluster mc) (u.parts best) i =
      ((checkOne P mc best i).1.map (fun r => (r.1, u.parts r.2)), u.cluster (checkOne P mc best i).2) := by
  unfold checkOne
  simp only
  rw [parts_length, leftOf_units, rightOf_units, ← parts_append, seg_units, addpars_units hu]
  have e1 : ModelCluster.fit (P'.env (u.parts (leftOf best i ++ rightOf best i best.length))) { estimate := false }
      { u.cluster mc with model := u.parts (seg best i) } = _ := fit_units hu (h.env _) { estimate := false } { mc with model := seg best i }
  rw [e1]
  generalize ModelCluster.fit (K := K) _ _ _ = R
  obtain ⟨r, c', l⟩ := R
  cases r with
  | error e => rfl
  | ok q =>
    have i1 : P'.qual (u.parts (leftOf best i ++ rightOf best i best.length)) (u.cluster c').model (addpars best i) =
      P.qual (leftOf best i ++ rightOf best i best.length) c'.model (addpars best i) := h.qual _ _ _
    simp only
    rw [i1]
    rfl

theorem checks_units (hu : u.Sensible) {P P' : PruneEnv K} (h : PruneAlike u P P') (best : List (Part K)) : ∀ (is : List ℕ) (mc : Cluster K),
    checks P' (u.parts best) (u.cluster mc) is =
      ((checks P best mc is).1.map (fun l => l.map u.checked), u.cluster (checks P best mc is).2)
  | [], mc => rfl
  | i :: is, mc => by
    unfold checks
    have e : ((u.parts best)[i]?.map (fun p => p.removable)).getD false = (best[i]?.map (fun p => p.removable)).getD false := by
      simp only [Change.parts, List.getElem?_map]
      cases best[i]? <;> rfl
    rw [e]
    split
    · rw [checkOne_units hu h]
      generalize checkOne P mc best i = R
      obtain ⟨r, mc'⟩ := R
      cases r with
      | error e => rfl
      | ok t =>
        obtain ⟨q, l⟩ := t
        simp only [Except.map]
        rw [checks_units hu h best is mc']
        generalize checks P best mc' is = R
        obtain ⟨r, mc''⟩ := R
        cases r <;> rfl
    · exact checks_units hu h best is mc

theorem stillChecking_units (q : Evaluator.Ev K) (cs : List (Check K)) (idx : ℕ) :
    stillChecking q (cs.map u.checked) idx = stillChecking q cs idx := by
  unfold stillChecking
  rw [List.any_map]
  rfl

theorem pruneLoop_units (hu : u.Sensible) {P P' : PruneEnv K} (h : PruneAlike u P P') {pick pick' : List (Evaluator.Ev K) → ℕ} (hp : ∀ l, pick' l = pick l) :
    ∀ (n : ℕ) (mc : Cluster K) (self : List (Part K)) (go : Bool) (best : List (Part K)) (q : Evaluator.Ev K) (ol : ℕ),
    pruneLoop P' pick' n (u.cluster mc) (u.parts self) go (u.parts best) q ol =
      ((pruneLoop P pick n mc self go best q ol).1, u.parts (pruneLoop P pick n mc self go best q ol).2)
  | 0, mc, self, go, best, q, ol => rfl
  | n + 1, mc, self, go, best, q, ol => by
    unfold pruneLoop
    split
    · rfl
    · rw [parts_length, checks_units hu h]
      generalize checks P best mc (List.range best.length) = R
      obtain ⟨r, mc'⟩ := R
      cases r with
      | error e => rfl
      | ok cs =>
        simp only [Except.map]
        have e1 : (cs.map u.checked).map (fun c => c.2.1) = cs.map (fun c => c.2.1) := by rw [List.map_map]; rfl
        rw [e1, hp, List.getElem?_map]
        cases cs[pick (cs.map (fun c => c.2.1))]? with
        | none => rfl
        | some t =>
          obtain ⟨idx, q', l⟩ := t
          simp only [Option.map_some, Change.checked]
          cases Evaluator.gt q' q with
          | error e => rfl
          | ok b =>
            cases b with
            | false => rfl
            | true =>
              simp only
              rw [leftOf_units, rightOf_units, ← parts_append, ← parts_append, stillChecking_units]
              have e2 : ModelCluster.fit (P'.env []) { estimate := false }
                  { u.cluster mc' with model := u.parts (leftOf best idx ++ l ++ rightOf best idx ol) } = _ :=
                fit_units hu (h.env []) { estimate := false } { mc' with model := leftOf best idx ++ l ++ rightOf best idx ol }
              rw [e2]
              generalize ModelCluster.fit (K := K) _ _ _ = R
              obtain ⟨r, mc'', l'⟩ := R
              cases r with
              | error e => rfl
              | ok r =>
                simp only
                have hm : (u.cluster mc'').model = [] ↔ mc''.model = [] := parts_nil
                have i1 : P'.qual [] (u.cluster mc'').model 0 = P.qual [] mc''.model 0 := h.qual [] _ _
                by_cases hz : mc''.model = []
                · rw [if_pos hz, if_pos (hm.2 hz)]; rfl
                · rw [if_neg hz, if_neg (fun h => hz (hm.1 h)), i1]
                  exact pruneLoop_units hu h hp n mc'' mc''.model _ mc''.model _ _

theorem prune_units (hu : u.Sensible) {P P' : PruneEnv K} (h : PruneAlike u P P') {pick pick' : List (Evaluator.Ev K) → ℕ} (hp : ∀ l, pick' l = pick l)
    (mc : Cluster K) (m : List (Part K)) :
    prune P' pick' (u.cluster mc) (u.parts m) = ((prune P pick mc m).1, u.parts (prune P pick mc m).2) := by
  unfold prune
  by_cases hz : m = []
  · rw [if_pos hz, if_pos (parts_nil.2 hz)]
  · have i1 : P'.qual [] (u.parts m) 0 = P.qual [] m 0 := h.qual [] _ _
    rw [if_neg hz, if_neg (fun h => hz (parts_nil.1 h)), parts_length, any_removable, i1]
    exact pruneLoop_units hu h hp _ mc m _ m _ _

end Verif.Parts.Units
