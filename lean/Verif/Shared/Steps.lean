import Verif.Shared.Lemmas

/-!
# Lemmas for C112: what one call does to the objects it is not called on
-/

set_option linter.unusedSectionVars false

namespace Verif.Parts.Shared

open Verif.Py Verif.PeakList Verif.Parts.ModelCluster Verif.Parts.Extract

variable {K : Type} [Field K] [LinearOrder K]

theorem contents_eq (arr : ℕ → List K) (c : Cluster K) (hr : c.r = arr c.rId) (he : c.err = arr c.eId) (hy : c.y = arr c.yId) :
    contents arr c = arr := by
  funext k
  unfold contents write
  split
  · rename_i h; rw [h]; exact hy
  split
  · rename_i h; rw [h]; exact he
  split
  · rename_i h; rw [h]; exact hr
  · rfl

theorem contents_call (W : World K) (S : Store K) (o : Obj K) (op : Op K) (k : ℕ) (h : ¬ (Adds op ∧ o.y = k)) :
    contents S.arr (call W (load S o) op).2.1 k = S.arr k := by
  obtain ⟨h1, h2, h3, h4, h5, h6⟩ := call_arrays W (load S o) op
  by_cases ha : Adds op
  · have hk : o.y ≠ k := fun e => h ⟨ha, e⟩
    unfold contents write
    by_cases e1 : k = (call W (load S o) op).2.1.yId
    · rw [h4] at e1; exact absurd e1.symm hk
    rw [if_neg e1]
    by_cases e2 : k = (call W (load S o) op).2.1.eId
    · rw [if_pos e2, e2, h2, h5]; rfl
    rw [if_neg e2]
    by_cases e3 : k = (call W (load S o) op).2.1.rId
    · rw [if_pos e3, e3, h1, h3]; rfl
    rw [if_neg e3]
  · rw [contents_eq]
    · rw [h1, h3]; rfl
    · rw [h2, h5]; rfl
    · rw [h6 ha, h4]; rfl

/-- A call on an existing cluster. -/
theorem step_call (W : World K) (S : Store K) (op : Op K) {i : ℕ} {o : Obj K} (ht : op.target = some i) (ho : S.obj[i]? = some o) :
    step W S op = ((call W (load S o) op).1,
      { put S i o (call W (load S o) op).2.1 (call W (load S o) op).2.2 with
        obj := (put S i o (call W (load S o) op).2.1 (call W (load S o) op).2.2).obj.modify i
          (rebind op (succeeded (call W (load S o) op).1)) }) := by
  cases op with
  | baseline _ => simp [Op.target] at ht
  | make => simp [Op.target] at ht
  | copy _ => simp [Op.target] at ht
  | join _ _ => simp [Op.target] at ht
  | _ => simp only [step, ht, ho]

theorem step_missing (W : World K) (S : Store K) (op : Op K) {i : ℕ} (ht : op.target = some i) (ho : S.obj[i]? = none) :
    step W S op = (.ok (), S) := by
  cases op with
  | baseline _ => simp [Op.target] at ht
  | make => simp [Op.target] at ht
  | copy _ => simp [Op.target] at ht
  | join _ _ => simp [Op.target] at ht
  | _ => simp only [step, ht, ho]

/-- What `put` does. -/
theorem put_cases (S : Store K) (i : ℕ) (o : Obj K) (c : Cluster K) (f : Fate K) :
    (put S i o c f).arr = contents S.arr c ∧
    ∃ base, base = written S.base o.baseline f.content ∧
      ((put S i o c f).base = base ∧ (put S i o c f).obj = S.obj.set i (attrs o c) ∨
       ∃ p, f.copied = true ∧ o.baseline ≠ none ∧ c.baseline = some p ∧ (put S i o c f).base = base ++ [p] ∧
        (put S i o c f).obj = S.obj.set i { attrs o c with baseline := some base.length }) := by
  unfold put
  simp only
  generalize written S.base o.baseline f.content = base
  split
  · rename_i h1 h2 h3
    exact ⟨rfl, base, rfl, Or.inr ⟨_, h1, by rw [h2]; simp, h3, rfl, rfl⟩⟩
  · exact ⟨rfl, base, rfl, Or.inl ⟨rfl, rfl⟩⟩

theorem set_length (S : Store K) (o : Obj K) (f : Fate K) :
    (written S.base o.baseline f.content).length = S.base.length := by
  unfold written
  split
  · rw [List.length_set]
  · rfl

theorem set_base (S : Store K) (o : Obj K) (f : Fate K) (b : ℕ) (h : o.baseline ≠ some b ∨ f.content = (load S o).baseline) :
    (written S.base o.baseline f.content)[b]? = S.base[b]? := by
  unfold written
  split
  · rename_i b' p h1 h2
    rw [List.getElem?_set]
    split
    · rename_i e
      subst e
      rcases h with h | h
      · exact absurd h1 h
      · rw [h2] at h
        unfold load at h
        simp only [h1, Option.bind_some] at h
        rw [← h]
        rw [if_pos]
        by_contra hc
        rw [List.getElem?_eq_none (by omega)] at h
        simp at h
    · rfl
  · rfl

theorem construct_cases (W : World K) (S : Store K) (o : Obj K) (s : Slice) :
    (∃ e, construct W S o s = (.error e, S)) ∨
    ∃ c, sliced W (load S o) s = (.ok (), c) ∧ construct W S o s = (.ok (), addObj S (views (attrs o c))) := by
  unfold construct
  generalize sliced W (load S o) s = r
  obtain ⟨r1, r2⟩ := r
  cases r1 with
  | error e => exact Or.inl ⟨e, rfl⟩
  | ok u => exact Or.inr ⟨r2, rfl, rfl⟩

/-- Calls that are on no cluster: they make an object, or nothing. -/
theorem step_new (W : World K) (S : Store K) (op : Op K) (ht : op.target = none) :
    (step W S op).2.arr = S.arr ∧ (∃ l, (step W S op).2.base = S.base ++ l) ∧
    ((step W S op).2.obj = S.obj ∨ ∃ o, (step W S op).2.obj = S.obj ++ [o]) := by
  cases op with
  | baseline p => exact ⟨rfl, ⟨_, rfl⟩, Or.inl rfl⟩
  | make model bl r y e s method funcs =>
    simp only [step]
    split
    · rcases construct_cases W S (fresh model bl r y e method funcs) (s.getD ⟨none, (S.arr r).length⟩) with ⟨er, h⟩ | ⟨c, -, h⟩
      · rw [h]; exact ⟨rfl, ⟨[], by simp⟩, Or.inl rfl⟩
      · rw [h]; exact ⟨rfl, ⟨[], by simp [addObj]⟩, Or.inr ⟨_, rfl⟩⟩
    · exact ⟨rfl, ⟨[], by simp⟩, Or.inl rfl⟩
  | copy i =>
    simp only [step]
    split
    · exact ⟨rfl, ⟨[], by simp⟩, Or.inl rfl⟩
    rename_i o _
    split
    · exact ⟨rfl, ⟨[], by simp⟩, Or.inl rfl⟩
    rename_i s _
    split
    · rcases construct_cases W S (fresh o.model none o.r o.y o.e o.method o.funcs) s with ⟨er, h⟩ | ⟨c, -, h⟩
      · rw [h]; exact ⟨rfl, ⟨[], by simp⟩, Or.inl rfl⟩
      · rw [h]; exact ⟨rfl, ⟨[], by simp [addObj]⟩, Or.inr ⟨_, rfl⟩⟩
    · rename_i p _
      rcases construct_cases W { S with base := S.base ++ [p] } (fresh o.model (some S.base.length) o.r o.y o.e o.method o.funcs) s
        with ⟨er, h⟩ | ⟨c, -, h⟩
      · rw [h]; exact ⟨rfl, ⟨_, rfl⟩, Or.inl rfl⟩
      · rw [h]; exact ⟨rfl, ⟨_, rfl⟩, Or.inr ⟨_, rfl⟩⟩
  | join i j =>
    simp only [step]
    split
    · split
      · exact ⟨rfl, ⟨[], by simp⟩, Or.inl rfl⟩
      · exact ⟨rfl, ⟨[], by simp [addObj]⟩, Or.inr ⟨_, rfl⟩⟩
    · exact ⟨rfl, ⟨[], by simp⟩, Or.inl rfl⟩
  | _ => simp [Op.target] at ht

theorem rebind_refs (op : Op K) (b : Bool) (o : Obj K) :
    { rebind op b o with rView := o.rView, yView := o.yView, eView := o.eView } = o := by
  unfold rebind
  split
  · rfl
  · split <;> rfl
  · rfl

/-- A call leaves the other clusters as they are, as far as their attributes go. -/
theorem step_obj (W : World K) (S : Store K) (op : Op K) {j : ℕ} {oj : Obj K} (ht : op.target ≠ some j) (hj : S.obj[j]? = some oj) :
    (step W S op).2.obj[j]? = some oj := by
  have hlt : j < S.obj.length := by
    by_contra hc
    rw [List.getElem?_eq_none (by omega)] at hj
    simp at hj
  cases hop : op.target with
  | none =>
    obtain ⟨-, -, h | ⟨o, h⟩⟩ := step_new W S op hop
    · rw [h]; exact hj
    · rw [h, List.getElem?_append_left hlt]; exact hj
  | some i =>
    have hij : i ≠ j := fun e => ht (by rw [hop, e])
    cases ho : S.obj[i]? with
    | none => rw [step_missing W S op hop ho]; exact hj
    | some o =>
      rw [step_call W S op hop ho]
      simp only
      rw [List.getElem?_modify_ne _ _ hij]
      obtain ⟨-, base, -, ⟨-, h⟩ | ⟨p, -, -, -, -, h⟩⟩ := put_cases S i o (call W (load S o) op).2.1 (call W (load S o) op).2.2
      · rw [h, List.getElem?_set_ne hij, hj]
      · rw [h, List.getElem?_set_ne hij, hj]

/-- The cluster a call is on stays with its arrays, and with its baseline object or a new one. -/
theorem step_self (W : World K) (S : Store K) (op : Op K) {i : ℕ} {o : Obj K} (ht : op.target = some i) (ho : S.obj[i]? = some o) :
    ∃ o', (step W S op).2.obj[i]? = some o' ∧ o'.r = o.r ∧ o'.y = o.y ∧ o'.e = o.e ∧
      (o'.baseline = o.baseline ∨ o.baseline ≠ none ∧ o'.baseline = some S.base.length ∧
        (step W S op).2.base[S.base.length]? = (call W (load S o) op).2.1.baseline) ∧
      (o' = rebind op (succeeded (call W (load S o) op).1) { attrs o (call W (load S o) op).2.1 with baseline := o'.baseline }) := by
  have hlt : i < S.obj.length := by
    by_contra hc
    rw [List.getElem?_eq_none (by omega)] at ho
    simp at ho
  rw [step_call W S op ht ho]
  simp only
  rw [List.getElem?_modify_eq]
  have hre := rebind_refs op (succeeded (call W (load S o) op).1)
  generalize rebind op (succeeded (call W (load S o) op).1) = g at hre
  obtain ⟨-, base, hb, ⟨h', h⟩ | ⟨p, -, hne, hc, h', h⟩⟩ := put_cases S i o (call W (load S o) op).2.1 (call W (load S o) op).2.2
  · rw [h, List.getElem?_set_self hlt]
    refine ⟨_, rfl, ?_, ?_, ?_, Or.inl ?_, ?_⟩
    · have e := congrArg Obj.r (hre (attrs o (call W (load S o) op).2.1)); exact e
    · have e := congrArg Obj.y (hre (attrs o (call W (load S o) op).2.1)); exact e
    · have e := congrArg Obj.e (hre (attrs o (call W (load S o) op).2.1)); exact e
    · have e := congrArg Obj.baseline (hre (attrs o (call W (load S o) op).2.1)); exact e
    · have e := congrArg Obj.baseline (hre (attrs o (call W (load S o) op).2.1))
      rw [show (g (attrs o (call W (load S o) op).2.1)).baseline = (attrs o (call W (load S o) op).2.1).baseline from e]
  · rw [h, List.getElem?_set_self hlt]
    have hl : base.length = S.base.length := by rw [hb]; exact set_length S o _
    refine ⟨_, rfl, ?_, ?_, ?_, Or.inr ⟨hne, ?_, ?_⟩, ?_⟩
    · have e := congrArg Obj.r (hre { attrs o (call W (load S o) op).2.1 with baseline := some base.length }); exact e
    · have e := congrArg Obj.y (hre { attrs o (call W (load S o) op).2.1 with baseline := some base.length }); exact e
    · have e := congrArg Obj.e (hre { attrs o (call W (load S o) op).2.1 with baseline := some base.length }); exact e
    · have e := congrArg Obj.baseline (hre { attrs o (call W (load S o) op).2.1 with baseline := some base.length })
      rw [← hl]; exact e
    · rw [h', ← hl, List.getElem?_append_right (le_refl _)]
      simp [hc]
    · have e := congrArg Obj.baseline (hre { attrs o (call W (load S o) op).2.1 with baseline := some base.length })
      rw [show (g { attrs o (call W (load S o) op).2.1 with baseline := some base.length }).baseline = some base.length from e]

/-- Only a fit of the baseline changes a baseline object, and only that of its cluster. -/
theorem step_base (W : World K) (S : Store K) (op : Op K) {b : ℕ} (hb : b < S.base.length)
    (hn : ∀ i oi, op.target = some i → S.obj[i]? = some oi → FitsBaseline op → oi.baseline ≠ some b) :
    (step W S op).2.base[b]? = S.base[b]? := by
  cases hop : op.target with
  | none =>
    obtain ⟨-, ⟨l, h⟩, -⟩ := step_new W S op hop
    rw [h, List.getElem?_append_left hb]
  | some i =>
    cases ho : S.obj[i]? with
    | none => rw [step_missing W S op hop ho]
    | some o =>
      rw [step_call W S op hop ho]
      simp only
      have hs : (written S.base o.baseline (call W (load S o) op).2.2.content)[b]? = S.base[b]? := by
        apply set_base
        by_cases hf : FitsBaseline op
        · exact Or.inl (hn i o hop ho hf)
        · exact Or.inr (call_base W (load S o) op hf).2
      have hl := set_length S o (call W (load S o) op).2.2
      obtain ⟨-, base, e, ⟨h', -⟩ | ⟨p, -, -, -, h', -⟩⟩ := put_cases S i o (call W (load S o) op).2.1 (call W (load S o) op).2.2
      · rw [h', e]; exact hs
      · rw [h', List.getElem?_append_left (by rw [e, hl]; exact hb), e]; exact hs

theorem step_base_length (W : World K) (S : Store K) (op : Op K) : S.base.length ≤ (step W S op).2.base.length := by
  cases hop : op.target with
  | none =>
    obtain ⟨-, ⟨l, h⟩, -⟩ := step_new W S op hop
    rw [h, List.length_append]; omega
  | some i =>
    cases ho : S.obj[i]? with
    | none => rw [step_missing W S op hop ho]
    | some o =>
      rw [step_call W S op hop ho]
      have hl := set_length S o (call W (load S o) op).2.2
      obtain ⟨-, base, e, ⟨h', -⟩ | ⟨p, -, -, -, h', -⟩⟩ := put_cases S i o (call W (load S o) op).2.1 (call W (load S o) op).2.2
      · simp only [h', e]; omega
      · simp only [h', e, List.length_append]; omega

/-- Only adding external peaks changes an array, and only the ordinates of its cluster. -/
theorem step_arr (W : World K) (S : Store K) (op : Op K) (k : ℕ)
    (hn : ∀ i oi, op.target = some i → S.obj[i]? = some oi → Adds op → oi.y ≠ k) : (step W S op).2.arr k = S.arr k := by
  cases hop : op.target with
  | none => rw [(step_new W S op hop).1]
  | some i =>
    cases ho : S.obj[i]? with
    | none => rw [step_missing W S op hop ho]
    | some o =>
      rw [step_call W S op hop ho]
      simp only
      rw [(put_cases S i o (call W (load S o) op).2.1 (call W (load S o) op).2.2).1]
      exact contents_call W S o op k (fun h => hn i o hop ho h.1 h.2)

end Verif.Parts.Shared
