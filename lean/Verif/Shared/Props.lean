import Verif.Shared.Born

/-!
# C112: what clusters that share data and baselines do to each other
-/

set_option linter.unusedSectionVars false

namespace Verif.Parts.Shared

open Verif.Py Verif.PeakList Verif.Parts.ModelCluster Verif.Parts.Extract

variable {K : Type} [Field K] [LinearOrder K]

/-- The references of the clusters are to objects that exist, and their views are those of their slice. -/
def Sound (S : Store K) : Prop :=
  ∀ o ∈ S.obj, o.slice ≠ none ∧ views o = o ∧ ∀ b, o.baseline = some b → b < S.base.length

theorem call_slice (W : World K) (c : Cluster K) (op : Op K) (h : ¬ Slices op) :
    (call W c op).2.1.slice = c.slice ∧ (call W c op).2.1.neverFit = c.neverFit := by
  by_cases ha : Adds op
  · cases op with
    | add i p =>
      have h := add_frame W.as c p
      constructor
      · have e := congrArg Cluster.slice h; exact e
      · have e := congrArg Cluster.neverFit h; exact e
    | _ => exact absurd ha (by simp [Adds])
  · exact ⟨(call_same W c op ha h).slice, (call_same W c op ha h).neverFit⟩

theorem rebind_viewed (W : World K) (S : Store K) (op : Op K) {o : Obj K} (b : Bool) (bl : Option ℕ) (h1 : o.slice ≠ none) (h2 : views o = o) :
    (rebind op b { attrs o (call W (load S o) op).2.1 with baseline := bl }).slice ≠ none ∧
    views (rebind op b { attrs o (call W (load S o) op).2.1 with baseline := bl }) =
      rebind op b { attrs o (call W (load S o) op).2.1 with baseline := bl } := by
  by_cases hs : Slices op
  · cases op with
    | slice i s =>
      refine ⟨?_, rfl⟩
      show (sliced W (load S o) s).2.slice ≠ none
      rw [(slice_frame W (load S o) s).2]; simp
    | _ => exact absurd hs (by simp [Slices])
  · have hsl : (call W (load S o) op).2.1.slice = o.slice := (call_slice W (load S o) op hs).1
    have hv : ∀ o' : Obj K, o'.slice = o.slice → o'.r = o.r → o'.y = o.y → o'.e = o.e → o'.rView = o.rView → o'.yView = o.yView →
        o'.eView = o.eView → views o' = o' := by
      intro o' a1 a2 a3 a4 a5 a6 a7
      obtain ⟨_, _, _, _, _, _, _, _, _, _, _, _, _⟩ := o'
      obtain ⟨_, _, _, _, _, _, _, _, _, _, _, _, _⟩ := o
      simp only [views, Obj.mk.injEq, true_and] at *
      subst a1 a2 a3 a4 a5 a6 a7
      simp [h2]
    unfold rebind
    split
    · exact absurd trivial hs
    · split
      · refine ⟨by show (call W (load S o) _).2.1.slice ≠ none; rw [hsl]; exact h1, ?_⟩
        have := hv { attrs o (call W (load S o) (.add _ _)).2.1 with baseline := bl } hsl rfl rfl rfl rfl rfl rfl
        unfold views at this ⊢
        simp only [Obj.mk.injEq, true_and] at this ⊢
        exact ⟨this.1, this.2.2⟩
      · exact ⟨by show (call W (load S o) _).2.1.slice ≠ none; rw [hsl]; exact h1, hv _ hsl rfl rfl rfl rfl rfl rfl⟩
    · exact ⟨by show (call W (load S o) _).2.1.slice ≠ none; rw [hsl]; exact h1, hv _ hsl rfl rfl rfl rfl rfl rfl⟩

/-- The clusters after a call: those before it, the one it was on, or a new one. -/
theorem after_step (W : World K) (S : Store K) (op : Op K) {k : ℕ} {o : Obj K} (h : (step W S op).2.obj[k]? = some o) :
    (S.obj[k]? = some o ∧ op.target ≠ some k) ∨
    (∃ o1, op.target = some k ∧ S.obj[k]? = some o1) ∨
    (op.target = none ∧ k = S.obj.length ∧ (step W S op).2.obj = S.obj ++ [o] ∧ Born W S (step W S op).2 op o) := by
  by_cases ht : op.target = some k
  · cases ho : S.obj[k]? with
    | some o1 => exact Or.inr (Or.inl ⟨o1, ht, rfl⟩)
    | none => rw [step_missing W S op ht ho, ho] at h; simp at h
  · cases ho : S.obj[k]? with
    | some o1 =>
      rw [step_obj W S op ht ho] at h
      exact Or.inl ⟨h, ht⟩
    | none =>
      right; right
      have hlen : S.obj.length ≤ k := by
        by_contra hc
        rw [List.getElem?_eq_getElem (by omega)] at ho
        simp at ho
      cases hop : op.target with
      | none =>
        obtain ⟨-, -, h' | ⟨o', h'⟩⟩ := step_new W S op hop
        · rw [h', ho] at h; simp at h
        · rw [h', List.getElem?_append_right hlen] at h
          have hk : k - S.obj.length = 0 := by
            by_contra hc
            rw [List.getElem?_eq_none (by simp; omega)] at h
            simp at h
          rw [hk] at h
          simp only [List.getElem?_cons_zero, Option.some.injEq] at h
          subst h
          exact ⟨rfl, by omega, h', born W S op hop h'⟩
      | some i =>
        exfalso
        cases hi : S.obj[i]? with
        | none => rw [step_missing W S op hop hi, ho] at h; simp at h
        | some oi =>
          rw [step_call W S op hop hi] at h
          simp only at h
          have hl : ((put S i oi (call W (load S oi) op).2.1 (call W (load S oi) op).2.2).obj.modify i
              (rebind op (succeeded (call W (load S oi) op).1))).length = S.obj.length := by
            rw [List.length_modify]
            obtain ⟨-, base, -, ⟨-, h⟩ | ⟨p, -, -, -, -, h⟩⟩ := put_cases S i oi (call W (load S oi) op).2.1 (call W (load S oi) op).2.2
            · rw [h, List.length_set]
            · rw [h, List.length_set]
          rw [List.getElem?_eq_none (by omega)] at h
          simp at h

theorem sound_step (W : World K) (S : Store K) (op : Op K) (h : Sound S) : Sound (step W S op).2 := by
  intro o ho
  obtain ⟨k, hk⟩ := List.mem_iff_getElem?.1 ho
  have hlen := step_base_length W S op
  rcases after_step W S op hk with ⟨h1, -⟩ | ⟨o1, ht, h1⟩ | ⟨ht, -, hobj, hb⟩
  · obtain ⟨a1, a2, a3⟩ := h o (List.mem_of_getElem? h1)
    exact ⟨a1, a2, fun b hb => by have := a3 b hb; omega⟩
  · obtain ⟨a1, a2, a3⟩ := h o1 (List.mem_of_getElem? h1)
    obtain ⟨o', e1, -, -, -, e2, e3⟩ := step_self W S op ht h1
    rw [hk] at e1
    simp only [Option.some.injEq] at e1
    subst e1
    have := rebind_viewed W S op (succeeded (call W (load S o1) op).1) o.baseline a1 a2
    rw [← e3] at this
    refine ⟨this.1, this.2, fun b hb => ?_⟩
    rcases e2 with e2 | ⟨hne, e2, e4⟩
    · rw [e2] at hb
      have := a3 b hb; omega
    · rw [e2] at hb
      simp only [Option.some.injEq] at hb
      subst hb
      by_cases hlt : S.base.length < (step W S op).2.base.length
      · exact hlt
      · exfalso
        -- a copy is only made of a baseline that is there
        rw [step_call W S op ht h1] at hlt hk e4
        simp only at hlt hk e4
        obtain ⟨-, base, hbase, ⟨hA, hB⟩ | ⟨p, -, -, -, hA, hB⟩⟩ := put_cases S k o1 (call W (load S o1) op).2.1 (call W (load S o1) op).2.2
        · have hlt' : k < S.obj.length := by
            by_contra hc
            rw [List.getElem?_eq_none (by omega)] at h1
            simp at h1
          rw [hB, List.getElem?_modify_eq, List.getElem?_set_self hlt'] at hk
          simp only [Option.map_eq_map, Option.map_some, Option.some.injEq] at hk
          have hr := rebind_refs op (succeeded (call W (load S o1) op).1) (attrs o1 (call W (load S o1) op).2.1)
          rw [hk] at hr
          have e := congrArg Obj.baseline hr
          simp only at e
          rw [e2] at e
          have e' : o1.baseline = some S.base.length := e.symm
          have := a3 _ e'
          omega
        · rw [hA] at hlt
          have := set_length S o1 (call W (load S o1) op).2.2
          rw [← hbase] at this
          rw [List.length_append] at hlt
          simp at hlt
          omega
  · refine ⟨hb.slice, hb.viewed, fun b hbb => ?_⟩
    rcases hb.origin with ⟨_, bl, _, _, _, _, _, _, -, -, -, e, e'⟩ | ⟨_, oi, -, -, -, -, -, -, -, -, e⟩ | ⟨_, _, oi, -, ho1, -, -, e⟩
    · rw [e] at hbb
      have := e' b hbb; omega
    · exact (e b hbb).2
    · rw [e] at hbb
      have := (h oi (List.mem_of_getElem? ho1)).2.2 b hbb; omega

theorem sound_run (W : World K) (ops : List (Op K)) : ∀ S : Store K, Sound S → Sound (run W S ops) := by
  induction ops with
  | nil => exact fun S h => h
  | cons op ops ih => exact fun S h => ih _ (sound_step W S op h)

/-- **C112.** Whatever has been called, on this cluster or others: `r_cluster`, `y_cluster` and `error_cluster` are the slice of the cluster of
its own data arrays as they are now. -/
theorem c112_views (W : World K) (S : Store K) (h0 : S.obj = []) (ops : List (Op K)) (o : Obj K) (ho : o ∈ (run W S ops).obj) :
    ∃ s, o.slice = some s ∧ o.rView = some (o.r, s) ∧ o.yView = some (o.y, s) ∧ o.eView = some (o.e, s) := by
  have hs : Sound S := by intro o ho; rw [h0] at ho; simp at ho
  obtain ⟨h1, h2, -⟩ := sound_run W ops S hs o ho
  cases hsl : o.slice with
  | none => exact absurd hsl h1
  | some s =>
    refine ⟨s, rfl, ?_, ?_, ?_⟩
    · have e := congrArg Obj.rView h2; simp only [views, hsl] at e; exact e.symm
    · have e := congrArg Obj.yView h2; simp only [views, hsl] at e; exact e.symm
    · have e := congrArg Obj.eView h2; simp only [views, hsl] at e; exact e.symm

end Verif.Parts.Shared
