import Verif.Shared.Model
import Verif.ModelCluster.Fit
import Verif.ModelCluster.ValueProps

/-!
# Lemmas for C112: what the methods of one cluster leave alone
-/

set_option linter.unusedSectionVars false

namespace Verif.Parts.Shared

open Verif.Py Verif.PeakList Verif.Parts.ModelCluster Verif.Parts.Extract

variable {K : Type} [Field K] [LinearOrder K]

theorem fitCore_same (E : Env K) (o : Opts) (c : Cluster K) : SameData c (fitCore E o c).2.1 := by
  unfold fitCore
  simp only
  generalize launch E o c = l
  obtain ⟨l1, l2, l3⟩ := l
  cases l1 with
  | error e => cases e <;> exact ⟨rfl, rfl, rfl, rfl, rfl, rfl, rfl, rfl, rfl, rfl⟩
  | ok u =>
    simp only
    split
    · exact ⟨rfl, rfl, rfl, rfl, rfl, rfl, rfl, rfl, rfl, rfl⟩
    · exact ⟨rfl, rfl, rfl, rfl, rfl, rfl, rfl, rfl, rfl, rfl⟩
    · split <;> exact ⟨rfl, rfl, rfl, rfl, rfl, rfl, rfl, rfl, rfl, rfl⟩

theorem SameData.model {c c' : Cluster K} (m : List (Part K)) (h : SameData { c with model := m } c') : SameData c c' :=
  ⟨h.r, h.y, h.err, h.rId, h.yId, h.eId, h.method, h.funcs, h.slice, h.neverFit⟩

theorem SameData.model' {c c' : Cluster K} (m : List (Part K)) (h : SameData c c') : SameData c { c' with model := m } :=
  ⟨h.r, h.y, h.err, h.rId, h.yId, h.eId, h.method, h.funcs, h.slice, h.neverFit⟩

theorem _root_.Verif.Parts.ModelCluster.SameData.trans {a b c : Cluster K} (h : SameData a b) (k : SameData b c) : SameData a c :=
  ⟨k.r.trans h.r, k.y.trans h.y, k.err.trans h.err, k.rId.trans h.rId, k.yId.trans h.yId, k.eId.trans h.eId, k.method.trans h.method,
    k.funcs.trans h.funcs, k.slice.trans h.slice, k.neverFit.trans h.neverFit⟩

theorem fit_same (E : Env K) (o : Opts) (c : Cluster K) : SameData c (ModelCluster.fit E o c).2.1 := by
  unfold ModelCluster.fit
  split
  · exact SameData.refl c
  split
  · split
    · split
      · exact SameData.model' _ (SameData.refl c)
      · exact SameData.model' _ (SameData.refl c)
      · exact SameData.model _ (fitCore_same E o _)
    · exact SameData.refl c
  · exact fitCore_same E o c

theorem contingent_same (E : Env K) (c : Cluster K) (m : ℕ) (g : K) : SameData c (contingentFit E c m g).2.1 := by
  unfold contingentFit
  split
  · exact SameData.refl c
  split
  · exact fit_same _ _ _
  · exact SameData.refl c

theorem reduce_same (E : Env K) (sc : Part K → K → K → Res (List K)) (val : Part K → K → K) (b : K) (c : Cluster K) (x y : K) :
    SameData c (reduceTo E sc val b c x y).2 := by
  unfold reduceTo
  split
  · exact SameData.refl c
  have h := fun m => SameData.model m (fit_same E {} { c with model := m })
  simp only
  have hm := h (matchAt sc val c.model x (y - b)).2
  generalize ModelCluster.fit E {} { c with model := (matchAt sc val c.model x (y - b)).2 } = f at hm
  obtain ⟨f1, f2, f3⟩ := f
  simp only at hm
  rcases f1 with e | _ | q
  · exact hm
  · exact SameData.model' _ hm
  · simp only
    split
    · exact SameData.model' _ hm
    · exact hm

theorem trial_same (E : Env K) (c : Cluster K) (best : List (Part K)) (s : Part K) : SameData c (trial E c best s).2 := by
  unfold trial
  have hm := SameData.model _ (fit_same E {} { c with model := best ++ [s] })
  generalize ModelCluster.fit E {} { c with model := best ++ [s] } = f at hm
  obtain ⟨f1, f2, f3⟩ := f
  cases f1 <;> exact hm

theorem trials_same (E : Env K) (best : List (Part K)) : ∀ (ss : List (Part K)) (c : Cluster K), SameData c (trials E c best ss).2 := by
  intro ss
  induction ss with
  | nil => exact fun c => SameData.refl c
  | cons s ss ih =>
    intro c
    unfold trials
    have h := trial_same E c best s
    generalize trial E c best s = t at h
    obtain ⟨t1, t2⟩ := t
    cases t1 with
    | error e => exact h
    | ok t =>
      simp only
      have h2 := ih t2
      generalize trials E t2 best ss = u at h2
      obtain ⟨u1, u2⟩ := u
      cases u1 <;> exact h.trans h2

theorem augmentLoop_same (E : Env K) (pick : List (Evaluator.Ev K) → ℕ) : ∀ (n : ℕ) (c : Cluster K) (best : List (Part K))
    (q : Evaluator.Ev K) (source : List (Part K)), SameData c (augmentLoop E pick n c best q source).2 := by
  intro n
  induction n with
  | zero => exact fun c _ _ _ => SameData.refl c
  | succ n ih =>
    intro c best q source
    unfold augmentLoop
    split
    · exact SameData.refl c
    have h := trials_same E best source c
    generalize trials E c best source = t at h
    obtain ⟨t1, t2⟩ := t
    cases t1 with
    | error e => exact h
    | ok ts =>
      simp only
      split
      · exact h
      · split
        · exact h
        · exact h.trans (ih _ _ _ _)
        · exact h

theorem augment_same (E : Env K) (pick : List (Evaluator.Ev K) → ℕ) (c : Cluster K) (source : List (Part K)) :
    SameData c (ModelCluster.augment E pick c source).2 := by
  unfold ModelCluster.augment
  have h := augmentLoop_same E pick source.length c c.model (E.quality c.model c.baseline) source
  generalize augmentLoop E pick source.length c c.model (E.quality c.model c.baseline) source = t at h
  obtain ⟨t1, t2⟩ := t
  cases t1 with
  | error e => exact h
  | ok best =>
    simp only
    generalize replacepeaks E.as t2.model best 0 t2.model.length = u
    obtain ⟨u1, u2⟩ := u
    cases u1 with
    | error e => exact SameData.model' _ h
    | ok _ =>
      simp only
      have hf := SameData.model _ (fit_same E {} { t2 with model := u2 })
      generalize ModelCluster.fit E {} { t2 with model := u2 } = f at hf
      obtain ⟨f1, f2, f3⟩ := f
      cases f1 <;> exact h.trans hf

/-! ### The baseline -/

theorem fitCore_base (E : Env K) {o : Opts} (ho : o.fitbaseline = false) (c : Cluster K) : (fitCore E o c).2.1.baseline = c.baseline := by
  have hb : fitBaseline o c = none := by unfold fitBaseline; cases c.baseline <;> simp [ho]
  have hl : launch E o c = ((E.lsq c.model).1, (E.lsq c.model).2, c.baseline) := by unfold launch; rw [hb]
  unfold fitCore
  simp only [hl]
  generalize (E.lsq c.model).1 = g
  cases g with
  | error e => cases e <;> rfl
  | ok u =>
    simp only
    split
    · rfl
    · rfl
    · split <;> rfl

theorem fit_base (E : Env K) {o : Opts} (ho : o.fitbaseline = false) (c : Cluster K) :
    (ModelCluster.fit E o c).2.1.baseline = c.baseline := by
  unfold ModelCluster.fit
  split
  · rfl
  split
  · split
    · split
      · rfl
      · rfl
      · exact fitCore_base E ho _
    · rfl
  · exact fitCore_base E ho c

theorem fate_base (E : Env K) {o : Opts} (ho : o.fitbaseline = false) (c : Cluster K) : (fateFit E o c).content = c.baseline := by
  unfold fateFit
  cases hs : started E o c with
  | none => rfl
  | some c1 =>
    have hc1 : c1.baseline = c.baseline := by
      unfold started at hs
      split at hs
      · simp at hs
      split at hs
      · split at hs
        · split at hs
          · simp at hs
          · simp only [Option.some.injEq] at hs; subst hs; rfl
        · simp at hs
      · simp only [Option.some.injEq] at hs; subst hs; rfl
    have hb : fitBaseline o c1 = none := by unfold fitBaseline; cases c1.baseline <;> simp [ho]
    have hl : (launch E o c1).2.2 = c.baseline := by unfold launch; rw [hb]; exact hc1
    simp only
    split <;> exact hl

theorem reduce_base (E : Env K) (sc : Part K → K → K → Res (List K)) (val : Part K → K → K) (b : K) (c : Cluster K) (x y : K) :
    (reduceTo E sc val b c x y).2.baseline = c.baseline := by
  unfold reduceTo
  split
  · rfl
  simp only
  have hm := fit_base E (o := {}) rfl { c with model := (matchAt sc val c.model x (y - b)).2 }
  generalize ModelCluster.fit E {} { c with model := (matchAt sc val c.model x (y - b)).2 } = f at hm
  obtain ⟨f1, f2, f3⟩ := f
  simp only at hm
  rcases f1 with e | _ | q
  · exact hm
  · exact hm
  · simp only
    split <;> exact hm

theorem trials_base (E : Env K) (best : List (Part K)) : ∀ (ss : List (Part K)) (c : Cluster K),
    (trials E c best ss).2.baseline = c.baseline := by
  intro ss
  induction ss with
  | nil => exact fun c => rfl
  | cons s ss ih =>
    intro c
    unfold trials
    have h : (trial E c best s).2.baseline = c.baseline := by
      unfold trial
      have hm := fit_base E (o := {}) rfl { c with model := best ++ [s] }
      generalize ModelCluster.fit E {} { c with model := best ++ [s] } = f at hm
      obtain ⟨f1, f2, f3⟩ := f
      cases f1 <;> exact hm
    generalize trial E c best s = t at h
    obtain ⟨t1, t2⟩ := t
    cases t1 with
    | error e => exact h
    | ok t =>
      simp only
      have h2 := ih t2
      generalize trials E t2 best ss = u at h2
      obtain ⟨u1, u2⟩ := u
      cases u1 <;> exact h2.trans h

theorem augmentLoop_base (E : Env K) (pick : List (Evaluator.Ev K) → ℕ) : ∀ (n : ℕ) (c : Cluster K) (best : List (Part K))
    (q : Evaluator.Ev K) (source : List (Part K)), (augmentLoop E pick n c best q source).2.baseline = c.baseline := by
  intro n
  induction n with
  | zero => exact fun c _ _ _ => rfl
  | succ n ih =>
    intro c best q source
    unfold augmentLoop
    split
    · rfl
    have h := trials_base E best source c
    generalize trials E c best source = t at h
    obtain ⟨t1, t2⟩ := t
    cases t1 with
    | error e => exact h
    | ok ts =>
      simp only
      split
      · exact h
      · split
        · exact h
        · exact (ih _ _ _ _).trans h
        · exact h

theorem augment_base (E : Env K) (pick : List (Evaluator.Ev K) → ℕ) (c : Cluster K) (source : List (Part K)) :
    (ModelCluster.augment E pick c source).2.baseline = c.baseline := by
  unfold ModelCluster.augment
  have h := augmentLoop_base E pick source.length c c.model (E.quality c.model c.baseline) source
  generalize augmentLoop E pick source.length c c.model (E.quality c.model c.baseline) source = t at h
  obtain ⟨t1, t2⟩ := t
  cases t1 with
  | error e => exact h
  | ok best =>
    simp only
    generalize replacepeaks E.as t2.model best 0 t2.model.length = u
    obtain ⟨u1, u2⟩ := u
    cases u1 with
    | error e => exact h
    | ok _ =>
      simp only
      have hf := fit_base E (o := {}) rfl { t2 with model := u2 }
      generalize ModelCluster.fit E {} { t2 with model := u2 } = f at hf
      obtain ⟨f1, f2, f3⟩ := f
      cases f1 <;> exact hf.trans h

/-! ### One call -/

/-- The calls that fit the baseline. -/
def FitsBaseline : Op K → Prop
  | .fit _ o => o.fitbaseline = true
  | _ => False

/-- The calls that add external peaks. -/
def Adds : Op K → Prop
  | .add _ _ => True
  | _ => False

/-- The calls of `change_slice`. -/
def Slices : Op K → Prop
  | .slice _ _ => True
  | _ => False

theorem add_frame (as : List K → List ℕ) (c : Cluster K) (peaks : List (Part K)) :
    { (addexternalpeaks as c peaks).2 with model := c.model, y := c.y } = c := by
  unfold addexternalpeaks
  generalize replacepeaks as c.model peaks 0 0 = u
  obtain ⟨u1, u2⟩ := u
  cases u1 with
  | error e => rfl
  | ok _ =>
    simp only
    cases Parts.value peaks c.r none with
    | error e => rfl
    | ok v =>
      simp only
      cases addArr c.y v <;> rfl

theorem slice_frame (W : World K) (c : Cluster K) (s : Slice) :
    { (sliced W c s).2 with slice := c.slice, neverFit := c.neverFit } = c ∧ (sliced W c s).2.slice = some s := by
  unfold sliced changeSlice
  cases updateNever (excess W c) c.neverFit c.slice s <;> exact ⟨rfl, rfl⟩

theorem prune_frame (W : World K) (c : Cluster K) (i : ℕ) :
    { (call W c (.prune i)).2.1 with model := c.model } = c ∧ (call W c (.prune i)).2.2 = still c := by
  unfold call
  simp only
  split
  · exact ⟨rfl, rfl⟩
  · split <;> exact ⟨rfl, rfl⟩

/-- Apart from `change_slice` and `addexternalpeaks` the calls leave data, slice and `never_fit` alone. -/
theorem call_same (W : World K) (c : Cluster K) (op : Op K) (ha : ¬ Adds op) (hs : ¬ Slices op) : SameData c (call W c op).2.1 := by
  cases op with
  | slice i s => exact absurd trivial hs
  | add i p => exact absurd trivial ha
  | fit i o => exact fit_same _ _ _
  | contingent i m g => exact contingent_same _ _ _ _
  | reduce i x y b => exact reduce_same _ _ _ _ _ _ _
  | augment i s b => exact augment_same _ _ _ _
  | prune i =>
    have h := (prune_frame W c i).1
    generalize (call W c (.prune i)).2.1 = d at h
    rw [← h]
    exact ⟨rfl, rfl, rfl, rfl, rfl, rfl, rfl, rfl, rfl, rfl⟩
  | _ => exact ⟨rfl, rfl, rfl, rfl, rfl, rfl, rfl, rfl, rfl, rfl⟩

/-- No call changes the abscissae, the uncertainties or which arrays the cluster refers to; only adding external peaks changes the ordinates. -/
theorem call_arrays (W : World K) (c : Cluster K) (op : Op K) :
    (call W c op).2.1.r = c.r ∧ (call W c op).2.1.err = c.err ∧ (call W c op).2.1.rId = c.rId ∧ (call W c op).2.1.yId = c.yId ∧
    (call W c op).2.1.eId = c.eId ∧ (¬ Adds op → (call W c op).2.1.y = c.y) := by
  by_cases ha : Adds op
  · cases op with
    | add i p =>
      have h := add_frame W.as c p
      refine ⟨?_, ?_, ?_, ?_, ?_, fun h => absurd ha h⟩
      · have h := congrArg Cluster.r h; exact h
      · have h := congrArg Cluster.err h; exact h
      · have h := congrArg Cluster.rId h; exact h
      · have h := congrArg Cluster.yId h; exact h
      · have h := congrArg Cluster.eId h; exact h
    | _ => exact absurd ha (by simp [Adds])
  by_cases hs : Slices op
  · cases op with
    | slice i s =>
      have h := (slice_frame W c s).1
      refine ⟨?_, ?_, ?_, ?_, ?_, fun _ => ?_⟩
      · have h := congrArg Cluster.r h; exact h
      · have h := congrArg Cluster.err h; exact h
      · have h := congrArg Cluster.rId h; exact h
      · have h := congrArg Cluster.yId h; exact h
      · have h := congrArg Cluster.eId h; exact h
      · have h := congrArg Cluster.y h; exact h
    | _ => exact absurd hs (by simp [Slices])
  · have h := call_same W c op ha hs
    exact ⟨h.r, h.err, h.rId, h.yId, h.eId, fun _ => h.y⟩

/-- Only a fit of the baseline changes the baseline or its object. -/
theorem call_base (W : World K) (c : Cluster K) (op : Op K) (hf : ¬ FitsBaseline op) :
    (call W c op).2.1.baseline = c.baseline ∧ (call W c op).2.2.content = c.baseline := by
  cases op with
  | slice i s => exact ⟨by have h := congrArg Cluster.baseline (slice_frame W c s).1; exact h, rfl⟩
  | add i p => exact ⟨by have h := congrArg Cluster.baseline (add_frame W.as c p); exact h, rfl⟩
  | fit i o =>
    have ho : o.fitbaseline = false := by
      cases h : o.fitbaseline with
      | false => rfl
      | true => exact absurd h hf
    exact ⟨fit_base _ ho _, fate_base _ ho _⟩
  | contingent i m g =>
    constructor
    · show (contingentFit (W.env c) c m g).2.1.baseline = _
      unfold contingentFit
      split
      · rfl
      split
      · exact fit_base _ (by rfl) _
      · rfl
    · show (fateContingent (W.env c) c m g).content = _
      unfold fateContingent
      split
      · rfl
      split
      · exact fate_base _ (by rfl) _
      · rfl
  | reduce i x y b => exact ⟨reduce_base _ _ _ _ _ _ _, rfl⟩
  | augment i s b => exact ⟨augment_base _ _ _ _, rfl⟩
  | prune i =>
    have h := prune_frame W c i
    exact ⟨by have h := congrArg Cluster.baseline h.1; exact h, by rw [h.2]; rfl⟩
  | _ => exact ⟨rfl, rfl⟩

end Verif.Parts.Shared
