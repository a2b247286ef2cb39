import Verif.App.Model

/-!
# Lemmas about the command line program: what `setvars` does with the dictionary it is given
-/

namespace Verif.App

open Verif.Py Verif.Extraction Verif.Pdf

set_option linter.unusedSectionVars false

variable {K : Type} [Field K] [LinearOrder K]

/-- What filling in defaults never changes. -/
structure Keeps (s s' : PX K) : Prop where
  cres : ∀ c, s.cres = some c → s'.cres = some c
  effdy : ∀ l, s.effdy = .array l → s'.effdy = .array l
  rng : ∀ a b, s.rng = some (some a, some b) → s'.rng = some (some a, some b)
  base : ∀ i, s.baseline = some (.inst i) → s'.baseline = some (.inst i)
  pf : ∀ i, s.pf = some i → s'.pf = some i
  err : ∀ i, s.errorMethod = some i → s'.errorMethod = some i

theorem Keeps.refl (s : PX K) : Keeps s s := ⟨fun _ h => h, fun _ h => h, fun _ _ h => h, fun _ h => h, fun _ h => h, fun _ h => h⟩

theorem Keeps.trans {a b c : PX K} (h : Keeps a b) (k : Keeps b c) : Keeps a c :=
  ⟨fun v e => k.cres v (h.cres v e), fun v e => k.effdy v (h.effdy v e), fun v w e => k.rng v w (h.rng v w e),
   fun v e => k.base v (h.base v e), fun v e => k.pf v (h.pf v e), fun v e => k.err v (h.err v e)⟩

theorem keeps_cres (s : PX K) : Keeps s (defCres s).2 := by
  unfold defCres
  cases hc : s.cres with
  | some c => exact Keeps.refl s
  | none =>
    simp only
    split
    · exact ⟨fun c e => (by rw [hc] at e; cases e), fun _ h => h, fun _ _ h => h, fun _ h => h, fun _ h => h, fun _ h => h⟩
    · exact Keeps.refl s
    · exact Keeps.refl s

theorem keeps_effdy (s : PX K) : Keeps s (defEffdy s).2 := by
  have key : ∀ e, (∀ l, s.effdy ≠ .array l) → Keeps s { s with effdy := e } := fun e h =>
    ⟨fun _ h => h, fun l hl => absurd hl (h l), fun _ _ h => h, fun _ h => h, fun _ h => h, fun _ h => h⟩
  unfold defEffdy
  split
  · rename_i hs _ _ _
    split
    · exact key _ (fun l h => (by rw [hs] at h; cases h))
    · split
      · exact Keeps.refl s
      · exact key _ (fun l h => (by rw [hs] at h; cases h))
  · exact Keeps.refl s
  · rename_i hs _
    split
    · exact key _ (fun l h => (by rw [hs] at h; cases h))
    · exact Keeps.refl s
  · split <;> exact Keeps.refl s
  · exact Keeps.refl s

theorem keeps_pf (D : Defaults K) (s : PX K) : Keeps s (defPf D s).2 := by
  unfold defPf
  cases hc : s.pf with
  | some c => exact Keeps.refl s
  | none =>
    simp only
    split
    · exact Keeps.refl s
    · split
      · exact Keeps.refl s
      · exact ⟨fun _ h => h, fun _ h => h, fun _ _ h => h, fun _ h => h, fun c e => (by rw [hc] at e; cases e), fun _ h => h⟩

theorem keeps_rng (s : PX K) : Keeps s (defRng s).2 := by
  unfold defRng
  split
  · exact Keeps.refl s
  · split
    · exact Keeps.refl s
    · refine ⟨fun _ h => h, fun _ h => h, fun a b e => ?_, fun _ h => h, fun _ h => h, fun _ h => h⟩
      rw [e]; rfl

theorem keeps_base (D : Defaults K) (s : PX K) : Keeps s (defBaseline D s).2 := by
  unfold defBaseline
  split
  · exact Keeps.refl s
  · rename_i hs
    exact ⟨fun _ h => h, fun _ h => h, fun _ _ h => h, fun i e => (by rw [hs] at e; cases e), fun _ h => h, fun _ h => h⟩
  · rename_i f hs
    split
    · exact Keeps.refl s
    · split
      · exact ⟨fun _ h => h, fun _ h => h, fun _ _ h => h, fun i e => (by rw [hs] at e; cases e), fun _ h => h, fun _ h => h⟩
      · exact ⟨fun _ h => h, fun _ h => h, fun _ _ h => h, fun i e => (by rw [hs] at e; cases e), fun _ h => h, fun _ h => h⟩
      · exact ⟨fun _ h => h, fun _ h => h, fun _ _ h => h, fun i e => (by rw [hs] at e; cases e), fun _ h => h, fun _ h => h⟩
      · exact Keeps.refl s

theorem keeps_rest (D : Defaults K) (s : PX K) : Keeps s (defRest D s) :=
  ⟨fun _ h => h, fun _ h => h, fun _ _ h => h, fun _ h => h, fun _ h => h, fun i e => by simp [defRest, e]⟩

theorem keeps_andThen {s : PX K} {r : Res Unit × PX K} {f : PX K → Res Unit × PX K} (h : Keeps s r.2)
    (hf : ∀ t, Keeps t (f t).2) : Keeps s (andThen r f).2 := by
  unfold andThen
  split
  · exact h
  · exact h.trans (hf _)

theorem keeps_default (D : Defaults K) (s : PX K) : Keeps s (defaultvars D s).2 :=
  keeps_andThen (keeps_andThen (keeps_andThen (keeps_andThen (keeps_andThen (keeps_cres s) keeps_effdy) (keeps_pf D))
    keeps_rng) (keeps_base D)) (keeps_rest D)

/-- The state after the values in the dictionary have been stored. -/
theorem psetLoop_append (a b : List (PKw K)) (s t : PPX K) (h : psetLoop a s = (.ok (), t)) :
    psetLoop (a ++ b) s = psetLoop b t := by
  induction a generalizing s with
  | nil => simp only [psetLoop, Prod.mk.injEq, true_and] at h; subst h; rfl
  | cons k ks ih =>
    rw [List.cons_append]
    simp only [psetLoop] at h ⊢
    cases hk : psetOne s k with
    | none => rw [hk] at h; simp at h
    | some u => rw [hk] at h; simp only at h ⊢; exact ih u h

/-- What the program stores before the defaults are filled in; `q` is the resolved qmax. -/
def stored (o : Options K) (other : ℕ → ℕ) (bl : Chosen Made K) (bid : Chosen Made K → Base) (pf me : Option ℕ)
    (eff : Option (List K)) (q : Option (Option K)) (s : PPX K) : PPX K :=
  { s with
    base := { s.base with
      pf := match pf with | some i => some i | none => s.base.pf
      baseline := if bl.truthy other then some (bid bl) else s.base.baseline
      cres := match nonzero o.cres with | some c => some c | none => s.base.cres
      effdy := match eff with | some l => .array l | none => s.base.effdy
      rng := match o.rng with | some r => some (some r.1, some r.2) | none => s.base.rng
      errorMethod := match me with | some i => some i | none => s.base.errorMethod }
    qmax := match q with | some v => v | none => s.qmax
    nyquist := if o.nyquist = some true then some true else s.nyquist
    supersample := match nonzero o.supersample with | some v => some v | none => s.supersample
    scale := if o.scale = some true then some true else s.scale }

/-- The dictionary, with qmax resolved. -/
theorem psetLoop_pdict (o : Options K) (other : ℕ → ℕ) (bl : Chosen Made K) (bid : Chosen Made K → Base)
    (pf me : Option ℕ) (eff : Option (List K)) (q : Option (Option K)) (s : PPX K) :
    psetLoop ((pf.toList.map (fun i => .base (.pf (some i)))) ++
      ((if bl.truthy other then [.base (.baseline (some (bid bl)))] else []) ++
        ((nonzero o.cres).toList.map (fun c => .base (.cres (some c)))) ++
        (eff.toList.map (fun l => .base (.effective_dy (.array l)))) ++
        (o.rng.toList.map (fun r => .base (.rng (some (some r.1, some r.2))))) ++
        (q.toList.map (fun v => .qmax (.value v))) ++
        (if o.nyquist = some true then [.nyquist (some true)] else []) ++
        ((nonzero o.supersample).toList.map .supersample) ++
        (if o.scale = some true then [.scale (some true)] else [])) ++
      (me.toList.map (fun i => .base (.error_method (some i))))) s =
    (.ok (), stored o other bl bid pf me eff q s) := by
  simp only [List.append_assoc]
  rw [psetLoop_append _ _ s (stored {} other .nothing bid pf none none none s)]
  rotate_left
  · cases pf <;> rfl
  rw [psetLoop_append _ _ _ (stored {} other bl bid pf none none none s)]
  rotate_left
  · by_cases h : bl.truthy other = true
    · simp only [if_pos h, stored]; simp [psetLoop, psetOne, setOne, nonzero]
    · simp only [if_neg h, stored]; simp [psetLoop, Chosen.truthy, nonzero]
  rw [psetLoop_append _ _ _ (stored { cres := o.cres } other bl bid pf none none none s)]
  rotate_left
  · simp only [stored]
    cases nonzero o.cres <;> simp [psetLoop, psetOne, setOne, nonzero]
  rw [psetLoop_append _ _ _ (stored { cres := o.cres } other bl bid pf none eff none s)]
  rotate_left
  · simp only [stored]
    cases eff <;> simp [psetLoop, psetOne, setOne]
  rw [psetLoop_append _ _ _ (stored { cres := o.cres, rng := o.rng } other bl bid pf none eff none s)]
  rotate_left
  · simp only [stored]
    cases o.rng <;> simp [psetLoop, psetOne, setOne]
  rw [psetLoop_append _ _ _ (stored { cres := o.cres, rng := o.rng } other bl bid pf none eff q s)]
  rotate_left
  · simp only [stored]
    cases q <;> simp [psetLoop, psetOne]
  rw [psetLoop_append _ _ _ (stored { cres := o.cres, rng := o.rng, nyquist := o.nyquist } other bl bid pf none eff q s)]
  rotate_left
  · simp only [stored]
    by_cases h : o.nyquist = some true
    · simp [psetLoop, psetOne, h]
    · simp [psetLoop, if_neg h]
  rw [psetLoop_append _ _ _ (stored { cres := o.cres, rng := o.rng, nyquist := o.nyquist, supersample := o.supersample }
    other bl bid pf none eff q s)]
  rotate_left
  · simp only [stored]
    cases nonzero o.supersample <;> simp [psetLoop, psetOne, nonzero]
  rw [psetLoop_append _ _ _ (stored { cres := o.cres, rng := o.rng, nyquist := o.nyquist, supersample := o.supersample, scale := o.scale } other bl bid pf none eff q s)]
  rotate_left
  · simp only [stored]
    by_cases h : o.scale = some true
    · simp [psetLoop, psetOne, h]
    · simp [psetLoop, if_neg h]
  simp only [stored]
  cases me <;> simp [psetLoop, psetOne, setOne]

/-- The qmax that `setvars` stores for an argument. -/
def resolved (fromData : Option K) : Option (QArg K) → Option (Option K)
  | none => none
  | some .automatic => some fromData
  | some (.value v) => some v

/-- The dictionary as `main` passes it. -/
def dictOf (o : Options K) (other : ℕ → ℕ) (bl : Chosen Made K) (bid : Chosen Made K → Base)
    (pf me : Option ℕ) (eff : Option (List K)) (q : Option (QArg K)) : List (PKw K) :=
  (pf.toList.map (fun i => .base (.pf (some i)))) ++
      ((if bl.truthy other then [.base (.baseline (some (bid bl)))] else []) ++
        ((nonzero o.cres).toList.map (fun c => .base (.cres (some c)))) ++
        (eff.toList.map (fun l => .base (.effective_dy (.array l)))) ++
        (o.rng.toList.map (fun r => .base (.rng (some (some r.1, some r.2))))) ++
        (q.toList.map .qmax) ++
        (if o.nyquist = some true then [.nyquist (some true)] else []) ++
        ((nonzero o.supersample).toList.map .supersample) ++
        (if o.scale = some true then [.scale (some true)] else [])) ++
      (me.toList.map (fun i => .base (.error_method (some i))))

theorem map_id_of {l : List (PKw K)} {f : PKw K → PKw K} (h : ∀ k ∈ l, f k = k) : l.map f = l := by
  induction l with
  | nil => rfl
  | cons a l ih => rw [List.map_cons, h a List.mem_cons_self, ih (fun k hk => h k (List.mem_cons_of_mem _ hk))]

theorem psetvars_dict (pi : K) (D : Defaults K) (o : Options K) (other : ℕ → ℕ) (bl : Chosen Made K)
    (bid : Chosen Made K → Base) (pf me : Option ℕ) (eff : Option (List K)) (q : Option (QArg K)) (s s' : PPX K)
    (h : psetvars pi D s (dictOf o other bl bid pf me eff q) = (.ok (), s')) :
    (q = some .automatic → s.qmaxFromData ≠ none) ∧ (∀ v, nonzero o.supersample = some v → 1 ≤ v) ∧
    pdefaultvars pi D (stored o other bl bid pf me eff (resolved s.qmaxFromData q) s) = (.ok (), s') := by
  have nodg : (dictOf o other bl bid pf me eff q).any isDg = false := by
    rw [List.any_eq_false]
    intro k hk
    simp only [dictOf, List.mem_append, List.mem_map, Option.mem_toList] at hk
    rcases hk with (⟨_, _, rfl⟩ | (((((((hk | ⟨_, _, rfl⟩) | ⟨_, _, rfl⟩) | ⟨_, _, rfl⟩) | ⟨_, _, rfl⟩) | hk) | ⟨_, _, rfl⟩) | hk)) |
      ⟨_, _, rfl⟩
    all_goals first
      | (simp [isDg]; done)
      | (split at hk
         · rw [List.mem_singleton] at hk; subst hk; simp [isDg]
         · simp at hk)
  unfold psetvars at h
  rw [nodg] at h
  simp only [Bool.false_and, Bool.false_eq_true, if_false] at h
  split at h
  · simp at h
  · rename_i ha
    split at h
    · simp at h
    · rename_i hs
      have hmap : (dictOf o other bl bid pf me eff q).map (resolveQ s.qmaxFromData) =
          dictOf o other bl bid pf me eff ((resolved s.qmaxFromData q).map .value) := by
        simp only [dictOf, List.map_append, List.map_map]
        congr 1
        congr 1
        congr 1
        congr 1
        congr 1
        congr 1
        congr 1
        · congr 1
          · congr 1
            split <;> rfl
        · cases q with
          | none => rfl
          | some a => cases a <;> rfl
        · split <;> rfl
        · split <;> rfl
      rw [hmap] at h
      have hl := psetLoop_pdict o other bl bid pf me eff (resolved s.qmaxFromData q) s
      have hd : dictOf o other bl bid pf me eff ((resolved s.qmaxFromData q).map .value) = _ := rfl
      refine ⟨?_, ?_, ?_⟩
      · rintro rfl
        intro hn
        apply ha
        rw [Bool.and_eq_true]
        refine ⟨?_, by simp [hn]⟩
        rw [List.any_eq_true]
        exact ⟨.qmax .automatic, by simp [dictOf], rfl⟩
      · intro v hv
        by_contra hlt
        apply hs
        rw [List.any_eq_true, hmap]
        exact ⟨.supersample v, by simp [dictOf, hv], by simpa using hlt⟩
      · rw [show psetLoop (dictOf o other bl bid pf me eff ((resolved s.qmaxFromData q).map .value)) s =
            (.ok (), stored o other bl bid pf me eff (resolved s.qmaxFromData q) s) from by
          rw [← hl]
          unfold dictOf
          cases resolved s.qmaxFromData q <;> rfl] at h
        exact h

end Verif.App
