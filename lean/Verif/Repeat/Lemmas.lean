import Verif.Repeat.Model

/-!
# Lemmas for C107: filling in defaults twice, and what the last fits write
-/

set_option linter.unusedSectionVars false

namespace Verif.Parts.Repeat

open Verif.Py Verif.Extraction Verif.Pdf Verif.Parts.Extract Verif.Parts.ModelCluster Verif.Parts.PdfExtract

section

variable {K : Type} [Field K] [LinearOrder K]

/-! ### Defaults -/

/-- The stages that `defaultvars` has behind it leave the variables alone. -/
structure Done (i : ℕ) (s : PX K) : Prop where
  cres : 0 < i → s.cres.isSome = true
  eff : 1 < i → ∃ e, s.effdy = e ∧ e ≠ .unset ∧ ∀ v, e = .scalar v → ¬ 0 < v
  pf : 2 < i → s.pf.isSome = true
  rng : 3 < i → ∃ a b, s.rng = some (some a, some b)
  base : 4 < i → ∃ b, s.baseline = some (.inst b)

theorem defCres_again (s : PX K) : (∃ t, defCres s = (.ok (), t) ∧ Done 1 t) ∨ ∃ e, defCres s = (.error e, s) := by
  unfold defCres
  cases h : s.cres with
  | some c => exact Or.inl ⟨s, rfl, ⟨by simp [h], by omega, by omega, by omega, by omega⟩⟩
  | none =>
    simp only
    cases ends s with
    | error e => exact Or.inr ⟨e, rfl⟩
    | ok ab =>
      obtain ⟨a, b⟩ := ab
      cases s.x with
      | none => exact Or.inr ⟨_, rfl⟩
      | some x => exact Or.inl ⟨_, rfl, ⟨by simp, by omega, by omega, by omega, by omega⟩⟩

theorem defEffdy_again {s : PX K} (h : Done 1 s) : (∃ t, defEffdy s = (.ok (), t) ∧ Done 2 t) ∨ ∃ e, defEffdy s = (.error e, s) := by
  have h1 := h.cres
  have aux : ∀ (t : PX K) (l : List K), t.cres = s.cres → t.effdy = .array l → Done 2 t := fun t l ht hl =>
    ⟨fun _ => by rw [ht]; exact h1 (by omega), fun _ => ⟨_, hl, by simp, by simp⟩, by omega, by omega, by omega⟩
  have aux' : ∀ e, s.effdy = e → e ≠ .unset → (∀ v, e = .scalar v → ¬ 0 < v) → Done 2 s := fun e h2 h3 h4 =>
    ⟨fun _ => h1 (by omega), fun _ => ⟨e, h2, h3, h4⟩, by omega, by omega, by omega⟩
  unfold defEffdy
  cases he : s.effdy with
  | unset =>
    cases s.x with
    | none => exact Or.inr ⟨_, rfl⟩
    | some x =>
      cases s.y with
      | none => exact Or.inr ⟨_, rfl⟩
      | some y =>
        cases s.dy with
        | none => exact Or.inr ⟨_, rfl⟩
        | some dy =>
          simp only
          split
          · exact Or.inl ⟨_, rfl, aux _ _ rfl rfl⟩
          · cases spread y with
            | error e => exact Or.inr ⟨_, rfl⟩
            | ok w => exact Or.inl ⟨_, rfl, aux _ _ rfl rfl⟩
  | scalar v =>
    cases s.x with
    | none =>
      simp only
      split
      · exact Or.inr ⟨_, rfl⟩
      · rename_i hv
        exact Or.inl ⟨_, rfl, aux' _ he (by simp) (by intro w hw; simp only [EffDy.scalar.injEq] at hw; exact hw ▸ hv)⟩
    | some x =>
      simp only
      split
      · exact Or.inl ⟨_, rfl, aux _ _ rfl rfl⟩
      · rename_i hv
        exact Or.inl ⟨_, rfl, aux' _ he (by simp) (by intro w hw; simp only [EffDy.scalar.injEq] at hw; exact hw ▸ hv)⟩
  | array l => exact Or.inl ⟨_, rfl, aux' _ he (by simp) (by simp)⟩

theorem defPf_again (D : Defaults K) {s : PX K} (h : Done 2 s) : (∃ t, defPf D s = (.ok (), t) ∧ Done 3 t) ∨ ∃ e, defPf D s = (.error e, s) := by
  have h1 := h.cres (by omega)
  have h2 := h.eff (by omega)
  unfold defPf
  cases hp : s.pf with
  | some p => exact Or.inl ⟨s, rfl, ⟨fun _ => h1, fun _ => h2, by simp [hp], by omega, by omega⟩⟩
  | none =>
    simp only
    cases ends s with
    | error e => exact Or.inr ⟨e, rfl⟩
    | ok ab =>
      obtain ⟨a, b⟩ := ab
      simp only
      split
      · exact Or.inr ⟨_, rfl⟩
      · exact Or.inl ⟨_, rfl, ⟨fun _ => h1, fun _ => h2, by simp, by omega, by omega⟩⟩

theorem defRng_again {s : PX K} (h : Done 3 s) : (∃ t, defRng s = (.ok (), t) ∧ Done 4 t) ∨ ∃ e, defRng s = (.error e, s) := by
  have h1 := h.cres (by omega)
  have h2 := h.eff (by omega)
  have h3 := h.pf (by omega)
  unfold defRng
  split
  · rename_i a b hr
    exact Or.inl ⟨s, rfl, ⟨fun _ => h1, fun _ => h2, fun _ => h3, fun _ => ⟨a, b, hr⟩, by omega⟩⟩
  · cases ends s with
    | error e => exact Or.inr ⟨e, rfl⟩
    | ok ab =>
      obtain ⟨a, b⟩ := ab
      exact Or.inl ⟨_, rfl, ⟨fun _ => h1, fun _ => h2, fun _ => h3, fun _ => ⟨_, _, rfl⟩, by omega⟩⟩

theorem defBaseline_again (D : Defaults K) {s : PX K} (h : Done 4 s) :
    (∃ t, defBaseline D s = (.ok (), t) ∧ Done 5 t) ∨ ∃ e, defBaseline D s = (.error e, s) := by
  have h1 := h.cres (by omega)
  have h2 := h.eff (by omega)
  have h3 := h.pf (by omega)
  have h4 := h.rng (by omega)
  have aux : ∀ b, Done 5 { s with baseline := some (.inst b) } := fun b =>
    ⟨fun _ => h1, fun _ => h2, fun _ => h3, fun _ => h4, fun _ => ⟨b, rfl⟩⟩
  unfold defBaseline
  split
  · rename_i b hb
    exact Or.inl ⟨s, rfl, ⟨fun _ => h1, fun _ => h2, fun _ => h3, fun _ => h4, fun _ => ⟨b, hb⟩⟩⟩
  · exact Or.inl ⟨_, rfl, aux _⟩
  · rename_i f hf
    cases selected s with
    | error e => exact Or.inr ⟨e, rfl⟩
    | ok xy =>
      obtain ⟨xs, ys⟩ := xy
      simp only
      split
      · exact Or.inl ⟨_, rfl, aux _⟩
      · exact Or.inl ⟨_, rfl, aux _⟩
      · exact Or.inl ⟨_, rfl, aux _⟩
      · exact Or.inr ⟨_, rfl⟩

theorem done_cres {i : ℕ} {s : PX K} (h : Done (i + 1) s) : defCres s = (.ok (), s) := by
  have := h.cres (by omega)
  unfold defCres
  cases hc : s.cres with
  | none => rw [hc] at this; cases this
  | some c => rfl

theorem done_eff {i : ℕ} {s : PX K} (h : Done (i + 2) s) : defEffdy s = (.ok (), s) := by
  obtain ⟨e, h1, h2, h3⟩ := h.eff (by omega)
  unfold defEffdy
  cases he : s.effdy with
  | unset => exact absurd (h1 ▸ he) h2
  | scalar v =>
    have := h3 v (h1 ▸ he)
    cases s.x with
    | none => simp only; rw [if_neg this]
    | some x => simp only; rw [if_neg this]
  | array l => rfl

theorem done_pf (D : Defaults K) {i : ℕ} {s : PX K} (h : Done (i + 3) s) : defPf D s = (.ok (), s) := by
  have := h.pf (by omega)
  unfold defPf
  cases hc : s.pf with
  | none => rw [hc] at this; cases this
  | some c => rfl

theorem done_rng {i : ℕ} {s : PX K} (h : Done (i + 4) s) : defRng s = (.ok (), s) := by
  obtain ⟨a, b, hr⟩ := h.rng (by omega)
  unfold defRng
  rw [hr]

theorem done_base (D : Defaults K) {i : ℕ} {s : PX K} (h : Done (i + 5) s) : defBaseline D s = (.ok (), s) := by
  obtain ⟨b, hb⟩ := h.base (by omega)
  unfold defBaseline
  rw [hb]

theorem andThen_ok {r : Res Unit × PX K} {s : PX K} {f : PX K → Res Unit × PX K} (h : r = (.ok (), s)) : andThen r f = f s := by
  rw [h]; rfl

theorem andThen_error {r : Res Unit × PX K} {s : PX K} {e : Err} {f : PX K → Res Unit × PX K} (h : r = (.error e, s)) :
    andThen r f = (.error e, s) := by
  rw [h]; rfl

theorem defRest_again (D : Defaults K) (s : PX K) : defRest D (defRest D s) = defRest D s := rfl

/-- `defaultvars()` a second time: the same answer, and no change. -/
theorem defaultvars_again (D : Defaults K) (s : PX K) : defaultvars D (defaultvars D s).2 = defaultvars D s := by
  rcases defCres_again s with ⟨t1, e1, d1⟩ | ⟨e, e1⟩
  swap
  · have h : defaultvars D s = (.error e, s) := by
      unfold defaultvars
      rw [andThen_error (andThen_error (andThen_error (andThen_error (andThen_error e1))))]
    rw [h]
    exact h
  rcases defEffdy_again d1 with ⟨t2, e2, d2⟩ | ⟨e, e2⟩
  swap
  · have h : ∀ u, defCres u = (.ok (), t1) → defaultvars D u = (.error e, t1) := fun u hu => by
      unfold defaultvars
      rw [andThen_ok hu, andThen_error (andThen_error (andThen_error (andThen_error e2)))]
    rw [h s e1]
    exact h t1 (done_cres d1)
  rcases defPf_again D d2 with ⟨t3, e3, d3⟩ | ⟨e, e3⟩
  swap
  · have h : ∀ u v, defCres u = (.ok (), v) → defEffdy v = (.ok (), t2) → defaultvars D u = (.error e, t2) := fun u v hu hv => by
      unfold defaultvars
      rw [andThen_ok hu, andThen_ok hv, andThen_error (andThen_error (andThen_error e3))]
    rw [h s _ e1 e2]
    exact h t2 _ (done_cres d2) (done_eff d2)
  rcases defRng_again d3 with ⟨t4, e4, d4⟩ | ⟨e, e4⟩
  swap
  · have h : ∀ u v w, defCres u = (.ok (), v) → defEffdy v = (.ok (), w) → defPf D w = (.ok (), t3) → defaultvars D u = (.error e, t3) :=
      fun u v w hu hv hw => by
      unfold defaultvars
      rw [andThen_ok hu, andThen_ok hv, andThen_ok hw, andThen_error (andThen_error e4)]
    rw [h s _ _ e1 e2 e3]
    exact h t3 _ _ (done_cres d3) (done_eff d3) (done_pf D d3)
  rcases defBaseline_again D d4 with ⟨t5, e5, d5⟩ | ⟨e, e5⟩
  swap
  · have h : ∀ u v w z, defCres u = (.ok (), v) → defEffdy v = (.ok (), w) → defPf D w = (.ok (), z) → defRng z = (.ok (), t4) →
        defaultvars D u = (.error e, t4) := fun u v w z hu hv hw hz => by
      unfold defaultvars
      rw [andThen_ok hu, andThen_ok hv, andThen_ok hw, andThen_ok hz, andThen_error e5]
    rw [h s _ _ _ e1 e2 e3 e4]
    exact h t4 _ _ _ (done_cres d4) (done_eff d4) (done_pf D d4) (done_rng d4)
  have h : ∀ u v w z y z', defCres u = (.ok (), v) → defEffdy v = (.ok (), w) → defPf D w = (.ok (), z) → defRng z = (.ok (), y) →
      defBaseline D y = (.ok (), z') → defaultvars D u = (.ok (), defRest D z') := fun u v w z y z' hu hv hw hz hy => by
    unfold defaultvars
    rw [andThen_ok hu, andThen_ok hv, andThen_ok hw, andThen_ok hz, andThen_ok hy]
  rw [h s _ _ _ _ _ e1 e2 e3 e4 e5]
  have d6 : Done 5 (defRest D t5) := ⟨d5.cres, d5.eff, d5.pf, d5.rng, d5.base⟩
  rw [h _ _ _ _ _ _ (done_cres d6) (done_eff d6) (done_pf D d6) (done_rng d6) (done_base D d6), defRest_again]

/-- What `defaultvars` leaves of `cres` and `pf`: what was set stays. -/
theorem defaultvars_keeps (D : Defaults K) (s : PX K) :
    (∀ v, s.cres = some v → (defaultvars D s).2.cres = some v) ∧ (∀ v, s.pf = some v → (defaultvars D s).2.pf = some v) := by
  have c1 : ∀ s : PX K, (∀ v, s.cres = some v → (defCres s).2.cres = some v) ∧ (defCres s).2.pf = s.pf := by
    intro s
    unfold defCres
    split
    · exact ⟨fun v h => h, rfl⟩
    · rename_i hc
      constructor
      · intro v h; rw [hc] at h; cases h
      · split <;> rfl
  have c2 : ∀ s : PX K, (defEffdy s).2.cres = s.cres ∧ (defEffdy s).2.pf = s.pf := by
    intro s
    unfold defEffdy
    repeat' split
    all_goals exact ⟨rfl, rfl⟩
  have c3 : ∀ s : PX K, (defPf D s).2.cres = s.cres ∧ (∀ v, s.pf = some v → (defPf D s).2.pf = some v) := by
    intro s
    unfold defPf
    split
    · exact ⟨rfl, fun v h => h⟩
    · rename_i hc
      constructor
      · repeat' split
        all_goals rfl
      · intro v h; rw [hc] at h; cases h
  have c4 : ∀ s : PX K, (defRng s).2.cres = s.cres ∧ (defRng s).2.pf = s.pf := by
    intro s
    unfold defRng
    repeat' split
    all_goals exact ⟨rfl, rfl⟩
  have c5 : ∀ s : PX K, (defBaseline D s).2.cres = s.cres ∧ (defBaseline D s).2.pf = s.pf := by
    intro s
    unfold defBaseline
    repeat' split
    all_goals exact ⟨rfl, rfl⟩
  have step : ∀ (r : Res Unit × PX K) (f : PX K → Res Unit × PX K), (andThen r f).2 = r.2 ∨ (andThen r f).2 = (f r.2).2 := by
    intro r f
    obtain ⟨r1, r2⟩ := r
    cases r1
    · exact Or.inl rfl
    · exact Or.inr rfl
  have lift : ∀ (r : Res Unit × PX K) (f : PX K → Res Unit × PX K), ((∀ v, s.cres = some v → r.2.cres = some v) ∧ (∀ v, s.pf = some v → r.2.pf = some v)) →
      (∀ t : PX K, (∀ v, t.cres = some v → (f t).2.cres = some v) ∧ (∀ v, t.pf = some v → (f t).2.pf = some v)) →
      (∀ v, s.cres = some v → (andThen r f).2.cres = some v) ∧ (∀ v, s.pf = some v → (andThen r f).2.pf = some v) := by
    intro r f hr hf
    rcases step r f with e | e
    · rw [e]; exact hr
    · rw [e]; exact ⟨fun v h => (hf _).1 v (hr.1 v h), fun v h => (hf _).2 v (hr.2 v h)⟩
  unfold defaultvars
  refine lift _ _ (lift _ _ (lift _ _ (lift _ _ (lift _ _ ⟨(c1 s).1, fun v h => (c1 s).2.trans h⟩ ?_) ?_) ?_) ?_) ?_
  · exact fun t => ⟨fun v h => (c2 t).1.trans h, fun v h => (c2 t).2.trans h⟩
  · exact fun t => ⟨fun v h => (c3 t).1.trans h, (c3 t).2⟩
  · exact fun t => ⟨fun v h => (c4 t).1.trans h, fun v h => (c4 t).2.trans h⟩
  · exact fun t => ⟨fun v h => (c5 t).1.trans h, fun v h => (c5 t).2.trans h⟩
  · exact fun t => ⟨fun v h => h, fun v h => h⟩

/-- `PDFPeakExtraction.defaultvars()` a second time: the same answer, and no change. -/
theorem pdefaultvars_again (pi : K) (D : Defaults K) (s : PPX K) : pdefaultvars pi D (pdefaultvars pi D s).2 = pdefaultvars pi D s := by
  obtain ⟨q, hqq⟩ : ∃ q, chooseQmax s = q := ⟨_, rfl⟩
  generalize hb : ({ s.base with cres := chooseCres pi (q) s.base.cres, pf := some (s.base.pf.getD (D.gaussianOverR (7 / 10))) } : PX K) = b
  have h0 : pdefaultvars pi D s = ((defaultvars D b).1, { s with
      qmax := some (q)
      nyquist := some (s.nyquist.getD (decide (0 < q)))
      scale := some (s.scale.getD false)
      supersample := some (s.supersample.getD 4)
      base := (defaultvars D b).2 }) := by rw [← hb, ← hqq]; rfl
  rw [h0]
  unfold pdefaultvars
  simp only [chooseQmax, Option.getD_some]
  have hpf : b.pf = some (s.base.pf.getD (D.gaussianOverR (7 / 10))) := by rw [← hb]
  have hcr : b.cres = chooseCres pi (q) s.base.cres := by rw [← hb]
  have hk := defaultvars_keeps D b
  have e : ({ (defaultvars D b).2 with
      cres := chooseCres pi (q) (defaultvars D b).2.cres
      pf := some ((defaultvars D b).2.pf.getD (D.gaussianOverR (7 / 10))) } : PX K) = (defaultvars D b).2 := by
    have h1 : some ((defaultvars D b).2.pf.getD (D.gaussianOverR (7 / 10))) = (defaultvars D b).2.pf := by
      rw [hk.2 _ hpf]; rfl
    have h2 : chooseCres pi (q) (defaultvars D b).2.cres = (defaultvars D b).2.cres := by
      cases hc : (defaultvars D b).2.cres with
      | some v => rfl
      | none =>
        unfold chooseCres
        simp only
        split
        · rename_i hq
          have : b.cres = some (pi / q) ∨ ∃ v, b.cres = some v := by
            rw [hcr]
            unfold chooseCres
            cases s.base.cres with
            | some v => exact Or.inr ⟨v, rfl⟩
            | none => simp only; rw [if_pos hq]; exact Or.inl rfl
          rcases this with h | ⟨v, h⟩
          · have := hk.1 _ h; rw [hc] at this; cases this
          · have := hk.1 _ h; rw [hc] at this; cases this
        · rfl
    rw [h1, h2]
  rw [e, defaultvars_again]

end

end Verif.Parts.Repeat
