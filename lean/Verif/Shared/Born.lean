import Verif.Shared.Histories

/-!
# Lemmas for C112: where a new cluster comes from
-/

set_option linter.unusedSectionVars false

namespace Verif.Parts.Shared

open Verif.Py Verif.PeakList Verif.Parts.ModelCluster Verif.Parts.Extract

variable {K : Type} [Field K] [LinearOrder K]

theorem Right.congr {W : World K} {c d : Cluster K} (h : Right W c) (h1 : d.r = c.r) (h2 : d.y = c.y) (h3 : d.err = c.err)
    (h4 : d.baseline = c.baseline) (h5 : d.slice = c.slice) (h6 : d.neverFit = true → c.neverFit = true) : Right W d := by
  intro s hs hn
  rw [excess_congr W h1 h2 h3 h4]
  exact h s (by rw [← h5]; exact hs) (h6 hn)

/-- A new cluster. -/
structure Born (W : World K) (S S' : Store K) (op : Op K) (o : Obj K) : Prop where
  slice : o.slice ≠ none
  viewed : views o = o
  right : Right W (load S' o)
  origin :
    (∃ model bl r y e s method funcs, op = .make model bl r y e s method funcs ∧ o.r = r ∧ o.y = y ∧ o.baseline = bl ∧
      ∀ b, bl = some b → b < S.base.length) ∨
    (∃ i oi, op = .copy i ∧ S.obj[i]? = some oi ∧ o.r = oi.r ∧ o.y = oi.y ∧ o.e = oi.e ∧ o.model = oi.model ∧ o.slice = oi.slice ∧
      (load S' o).baseline = (load S oi).baseline ∧ ∀ b, o.baseline = some b → b = S.base.length ∧ b < S'.base.length) ∨
    (∃ i j oi, op = .join i j ∧ S.obj[i]? = some oi ∧ o.r = oi.r ∧ o.y = oi.y ∧ o.baseline = oi.baseline)

/-- What the constructor makes. -/
theorem constructed {W : World K} {S : Store K} {o : Obj K} {s : Slice} {c : Cluster K} (h0 : o.slice = none)
    (h : sliced W (load S o) s = (.ok (), c)) :
    (views (attrs o c)).slice = some s ∧ (views (attrs o c)).model = o.model ∧ ∀ S' : Store K, S'.arr = S.arr → S'.base = S.base →
      Right W (load S' (views (attrs o c))) := by
  have hf := slice_frame W (load S o) s
  rw [h] at hf
  obtain ⟨h1, h2⟩ := hf
  simp only at h1 h2
  have hr := sliced_right h (fun t ht => by
    have : (load S o).slice = none := h0
    rw [this] at ht; simp at ht)
  refine ⟨h2, by have e := congrArg Cluster.model h1; exact e, fun S' ha hb => ?_⟩
  refine hr.congr ?_ ?_ ?_ ?_ rfl (fun h => h)
  · have e := congrArg Cluster.r h1
    show S'.arr _ = _
    rw [ha]; exact e.symm
  · have e := congrArg Cluster.y h1
    show S'.arr _ = _
    rw [ha]; exact e.symm
  · have e := congrArg Cluster.err h1
    show S'.arr _ = _
    rw [ha]; exact e.symm
  · have e := congrArg Cluster.baseline h1
    show Option.bind _ _ = _
    rw [hb]; exact e.symm

theorem views_views (o : Obj K) : views (views o) = views o := rfl

theorem append_self_ne {α : Type} (l : List α) (a : α) : l ≠ l ++ [a] := by
  intro h
  have := congrArg List.length h
  simp at this

theorem append_last {α : Type} {l : List α} {a b : α} (h : l ++ [a] = l ++ [b]) : a = b := by
  have := List.append_cancel_left h
  simpa using this

theorem born (W : World K) (S : Store K) (op : Op K) (ht : op.target = none) {o : Obj K} (h : (step W S op).2.obj = S.obj ++ [o]) :
    Born W S (step W S op).2 op o := by
  cases op with
  | baseline p => exact absurd h (append_self_ne _ _)
  | make model bl r y e s method funcs =>
    simp only [step] at h ⊢
    split at h
    · rename_i hb
      rw [if_pos hb]
      rcases construct_cases W S (fresh model bl r y e method funcs) (s.getD ⟨none, (S.arr r).length⟩) with ⟨er, hc⟩ | ⟨c, hs, hc⟩
      · rw [hc] at h; exact absurd h (append_self_ne _ _)
      · rw [hc] at h ⊢
        obtain rfl := append_last h
        obtain ⟨k1, -, k2⟩ := constructed rfl hs
        refine ⟨by rw [k1]; simp, rfl, k2 _ rfl rfl, Or.inl ⟨model, bl, r, y, e, s, method, funcs, rfl, rfl, rfl, rfl, ?_⟩⟩
        intro b hbb
        rw [hbb] at hb
        simpa using hb
    · exact absurd h (append_self_ne _ _)
  | copy i =>
    simp only [step] at h ⊢
    cases ho : S.obj[i]? with
    | none => rw [ho] at h; exact absurd h (append_self_ne _ _)
    | some oi =>
      rw [ho] at h
      simp only at h ⊢
      cases hsl : oi.slice with
      | none => rw [hsl] at h; exact absurd h (append_self_ne _ _)
      | some s =>
        rw [hsl] at h
        simp only at h ⊢
        cases hbl : (load S oi).baseline with
        | none =>
          rw [hbl] at h
          simp only at h ⊢
          rcases construct_cases W S (fresh oi.model none oi.r oi.y oi.e oi.method oi.funcs) s with ⟨er, hc⟩ | ⟨c, hs, hc⟩
          · rw [hc] at h; exact absurd h (append_self_ne _ _)
          · rw [hc] at h ⊢
            obtain rfl := append_last h
            obtain ⟨k1, k3, k2⟩ := constructed rfl hs
            refine ⟨by rw [k1]; simp, rfl, k2 _ rfl rfl, Or.inr (Or.inl ⟨i, oi, rfl, ho, rfl, rfl, rfl, k3, by rw [k1, hsl], ?_, ?_⟩)⟩
            · rw [hbl]; rfl
            · intro b hb
              simp [views, attrs, fresh] at hb
        | some p =>
          rw [hbl] at h
          simp only at h ⊢
          rcases construct_cases W { S with base := S.base ++ [p] } (fresh oi.model (some S.base.length) oi.r oi.y oi.e oi.method oi.funcs) s
            with ⟨er, hc⟩ | ⟨c, hs, hc⟩
          · rw [hc] at h; exact absurd h (append_self_ne _ _)
          · rw [hc] at h ⊢
            obtain rfl := append_last h
            obtain ⟨k1, k3, k2⟩ := constructed rfl hs
            refine ⟨by rw [k1]; simp, rfl, k2 _ rfl rfl, Or.inr (Or.inl ⟨i, oi, rfl, ho, rfl, rfl, rfl, k3, by rw [k1, hsl], ?_, ?_⟩)⟩
            · rw [hbl]
              simp [load, views, attrs, fresh, addObj]
            · intro b hb
              simp only [views, attrs, fresh, Option.some.injEq] at hb
              subst hb
              exact ⟨rfl, by simp [addObj]⟩
  | join i j =>
    simp only [step] at h ⊢
    cases ho : S.obj[i]? with
    | none => rw [ho] at h; exact absurd h (append_self_ne _ _)
    | some o1 =>
      cases ho2 : S.obj[j]? with
      | none => rw [ho, ho2] at h; exact absurd h (append_self_ne _ _)
      | some o2 =>
        rw [ho, ho2] at h
        simp only at h ⊢
        cases hj : joinAdjacent W.as W.eqv W.sc W.val (excess W (load S o1)) (load S o1) (load S o2) with
        | error e => rw [hj] at h; exact absurd h (append_self_ne _ _)
        | ok c =>
          rw [hj] at h
          simp only at h ⊢
          obtain rfl := append_last h
          obtain ⟨k1, k2⟩ := join_frame hj
          obtain ⟨model, funcs, s, hc⟩ := join_cases hj
          have hf := (slice_frame W { load S o1 with model := model, slice := none, lastFit := 0, neverFit := false, funcs := funcs } s).1
          have hc' : sliced W { load S o1 with model := model, slice := none, lastFit := 0, neverFit := false, funcs := funcs } s = (.ok (), c) := hc
          rw [hc'] at hf
          simp only at hf
          refine ⟨k1, rfl, k2.congr ?_ ?_ ?_ ?_ rfl (fun h => h), Or.inr (Or.inr ⟨i, j, o1, rfl, ho, rfl, rfl, rfl⟩)⟩
          · have e := congrArg Cluster.r hf; exact e.symm
          · have e := congrArg Cluster.y hf; exact e.symm
          · have e := congrArg Cluster.err hf; exact e.symm
          · have e := congrArg Cluster.baseline hf; exact e.symm
  | _ => simp [Op.target] at ht

end Verif.Parts.Shared
