import Verif.Extract.Loop

/-!
# One search: the main loop to its end, initial peaks, pruning, final fit
-/

set_option linter.unusedSectionVars false

namespace Verif.Parts.Extract

open Verif.Py Verif.PeakList Verif.Parts.ModelCluster

variable {K : Type} [Field K] [LinearOrder K] [IsStrictOrderedRing K]
variable {W : World K} {J : Job K} {Q : Key K → Prop}

theorem argsort_of_sortsKeys {as : List K → List ℕ} (h : SortsKeys as) (l : List K) : Cluster.IsArgsort l (as l) := by
  obtain ⟨h1, h2⟩ := h l
  refine ⟨h1, ?_⟩
  rw [List.pairwise_iff_getElem]
  intro i j hi hj hij
  have ri : (as l)[i] < l.length := by simpa using h1.mem_iff.1 (List.getElem_mem hi)
  have rj : (as l)[j] < l.length := by simpa using h1.mem_iff.1 (List.getElem_mem hj)
  have := h2 i j _ _ _ _ hij (List.getElem?_eq_getElem hi) (List.getElem?_eq_getElem hj)
    (List.getElem?_eq_getElem ri) (List.getElem?_eq_getElem rj)
  rw [List.getD_eq_getElem?_getD, List.getD_eq_getElem?_getD, List.getElem?_eq_getElem ri,
    List.getElem?_eq_getElem rj]
  exact this

/-- The main loop, whatever its bound on iterations: if it returns, it ends with all points clustered. -/
theorem mainLoop_sync (hS : Sane W) (hQ : Supplies W J Q) {rec : Deeper K} (hR : Finds rec Q) {yd y0 : List K}
    (hx : Data J.x yd J.dy) (hl : J.x.length = y0.length) {order : List ℕ} (ho : Cluster.IsArgsort y0 order) {mp : ℕ} :
    ∀ (n : ℕ) (s : Cluster.State K) (ms ms' : List (Cluster K)) (sl : List (ℕ × ℕ)),
    Cluster.LoopInv J.x y0 J.cres order ⟨s, sl⟩ → Sync J Q J.x yd J.dy (some J.bl) ms sl →
    mainLoop W J rec yd mp n s ms = .ok ms' →
    ∃ e, Cluster.LoopInv J.x y0 J.cres order e ∧ e.dc.currentIdx = 0 ∧ Sync J Q J.x yd J.dy (some J.bl) ms' e.slices := by
  intro n
  induction n with
  | zero => intro s ms ms' sl _ _ h; simp [mainLoop] at h
  | succ n ih =>
    intro s ms ms' sl hi hs h
    unfold mainLoop at h
    have hinv := Cluster.inv_next hx.inc.nondecreasing hl ho hi.inv
    have hstep := Cluster.step_cases hx.inc hl ho hi
    cases hn : Cluster.next s with
    | mk o s1 =>
      rw [hn] at h
      have hn' : Cluster.next (⟨s, sl⟩ : Cluster.Extraction K).dc = (o, s1) := hn
      rw [hn'] at hinv
      cases o with
      | ok =>
        simp only at h
        split at h
        · simp at h
        · rename_i s2 ms2 e2
          obtain ⟨sl2, g1, g2⟩ := iteration_sync hS hQ hR hx hn hinv.wf hs e2
          rcases hstep with ⟨e', k1, -, -⟩ | ⟨e', k1, k2, -⟩
          · rw [g1] at k1; simp at k1
          · rw [g1] at k1
            simp only [Cluster.StepResult.next.injEq] at k1
            subst k1
            exact ih s2 ms2 ms' sl2 k2 g2 h
      | stopIteration =>
        simp only [Except.ok.injEq] at h
        subst h
        rcases hstep with ⟨e', k1, k2, k3⟩ | ⟨e', k1, -, -⟩
        · refine ⟨e', k2, k3, ?_⟩
          unfold Cluster.Extraction.step at k1
          rw [hn'] at k1
          simp only [Cluster.StepResult.finished.injEq] at k1
          rw [← k1]; exact hs
        · unfold Cluster.Extraction.step at k1
          rw [hn'] at k1
          simp at k1
      | valueError => simp at h
      | indexError => simp at h
      | typeError => simp at h
      | exception => simp at h

/-- A larger bound on iterations changes nothing: the loop never runs out of it. -/
theorem mainLoop_fuel (hS : Sane W) (hQ : Supplies W J Q) {rec : Deeper K} (hR : Finds rec Q) {yd y0 : List K}
    (hx : Data J.x yd J.dy) (hl : J.x.length = y0.length) {order : List ℕ} (ho : Cluster.IsArgsort y0 order) {mp : ℕ} :
    ∀ (n k : ℕ) (s : Cluster.State K) (ms : List (Cluster K)) (sl : List (ℕ × ℕ)),
    Cluster.LoopInv J.x y0 J.cres order ⟨s, sl⟩ → Sync J Q J.x yd J.dy (some J.bl) ms sl → s.currentIdx < n →
    mainLoop W J rec yd mp (n + k) s ms = mainLoop W J rec yd mp n s ms := by
  intro n
  induction n with
  | zero => intro k s ms sl _ _ h; omega
  | succ n ih =>
    intro k s ms sl hi hs hlt
    rw [show n + 1 + k = (n + k) + 1 by omega]
    unfold mainLoop
    have hinv := Cluster.inv_next hx.inc.nondecreasing hl ho hi.inv
    have hstep := Cluster.step_cases hx.inc hl ho hi
    cases hn : Cluster.next s with
    | mk o s1 =>
      have hn' : Cluster.next (⟨s, sl⟩ : Cluster.Extraction K).dc = (o, s1) := hn
      rw [hn'] at hinv
      cases o with
      | ok =>
        simp only
        cases e2 : iteration W J rec yd mp s1 ms with
        | error e => rfl
        | ok v =>
          obtain ⟨s2, ms2⟩ := v
          simp only
          obtain ⟨sl2, g1, g2⟩ := iteration_sync hS hQ hR hx hn hinv.wf hs e2
          rcases hstep with ⟨e', k1, -, -⟩ | ⟨e', k1, k2, k3⟩
          · rw [g1] at k1; simp at k1
          · rw [g1] at k1
            simp only [Cluster.StepResult.next.injEq] at k1
            subst k1
            exact ih k s2 ms2 sl2 k2 g2 (by simp only at k3; omega)
      | _ => rfl

theorem zip_back {v : K → K} : ∀ (x y : List K), y.length = x.length →
    List.zipWith (fun a b => b + v a) x (List.zipWith (fun a b => b - v a) x y) = y := by
  intro x
  induction x with
  | nil => intro y h; simp at h; simp [h]
  | cons a x ih =>
    intro y h
    match y, h with
    | b :: y, h =>
      simp only [List.zipWith_cons_cons]
      rw [ih y (by simpa using h)]
      simp

/-- What a search that returns has found, before the names and numbers: data, extent, and a model made of the
initial peaks and peaks satisfying `Q`. -/
structure Found (W : World K) (J : Job K) (Q : Key K → Prop) (top : Bool) (c : Cluster K) : Prop where
  r : c.r = J.x
  y : c.y = J.y
  err : c.err = J.dy
  slice : c.slice = some ⟨some 0, J.x.length⟩
  method : c.method = J.method
  funcs : ∀ f ∈ c.funcs, f ∈ J.funcs
  base : BaseKept { fitbaseline := top } (some J.bl) c.baseline
  model : (∃ m, Keys Q m ∧ Kept (J.ip ++ m) c.model) ∨
    (hard J.ip = [] ∧ Keys Q c.model)

theorem search_found (hS : Sane W) (hQ : Supplies W J Q) {rec : Deeper K} (hR : Finds rec Q)
    (hx : Data J.x J.y J.dy) (hx0 : J.x ≠ []) {top : Bool} {c : Cluster K} (h : search W J rec top = .ok c) :
    Found W J Q top c := by
  unfold search searchN at h
  simp only at h
  obtain ⟨dc, e1, h⟩ := bind_ok h
  obtain ⟨first, e2, h⟩ := bind_ok h
  obtain ⟨mp, -, h⟩ := bind_ok h
  obtain ⟨ms, e3, h⟩ := bind_ok h
  obtain ⟨c0, e4, h⟩ := bind_ok h
  have hmk : Cluster.mk J.x (List.zipWith (fun a b => b - W.val J.bl a - valueAt W.val J.ip a) J.x J.y) J.cres
      (W.as (List.zipWith (fun a b => b - W.val J.bl a - valueAt W.val J.ip a) J.x J.y)) = .ok dc := by
    split at e1
    · simp at e1
    · rename_i s heq; simp only [Except.ok.injEq] at e1; rw [heq, e1]
  clear e1
  generalize hy0 : List.zipWith (fun a b => b - W.val J.bl a - valueAt W.val J.ip a) J.x J.y = y0 at hmk
  generalize hyd : List.zipWith (fun a b => b - valueAt W.val J.ip a) J.x J.y = yd at e2 e3
  have hl0 : J.x.length = y0.length := by rw [← hy0, List.length_zipWith, hx.leny, min_self]
  have hld : yd.length = J.x.length := by rw [← hyd, List.length_zipWith, hx.leny, min_self]
  have hxd : Data J.x yd J.dy := ⟨hx.inc, hld, hx.lene⟩
  have ho := argsort_of_sortsKeys hS.sorts y0
  obtain ⟨-, -, hinv, hproc, -, hlen⟩ := Cluster.inv_mk hx0 ho hmk
  have hpos : 0 < J.x.length := List.length_pos_iff.2 hx0
  have hI : Cluster.LoopInv J.x y0 J.cres (W.as y0) ⟨dc, [Cluster.cut dc 0]⟩ := by
    refine ⟨hinv, hproc, ?_, ?_⟩
    · intro i hi
      have : i + 1 < dc.clusters.length := hi
      omega
    · show [Cluster.cut dc 0] = dc.clusters.map Cluster.sl
      match hcl : dc.clusters, hlen with
      | [c], _ => simp [Cluster.cut, Cluster.sl, Cluster.row, hcl]
  obtain ⟨o1, sl1, -, -⟩ := newCluster_of (Q := Q) Keys.nil e2
  have hsync : Sync J Q J.x yd J.dy (some J.bl) [first] [Cluster.cut dc 0] := by
    refine .cons ⟨o1, sl1, ?_⟩ .nil
    have hr : Cluster.row dc.clusters 0 ∈ dc.clusters := by
      match hcl : dc.clusters, hlen with
      | [c], _ => simp [Cluster.row]
    have := hinv.wf.valid _ hr
    unfold Cluster.cut
    simp only
    omega
  obtain ⟨e, i1, i2, i3⟩ := mainLoop_sync hS hQ hR hxd hl0 ho _ _ _ _ _ hI hsync e3
  have hone := Cluster.noneAdjacent_of_wf_complete i1.inv.wf i1.none (Cluster.all_clustered hl0 ho i1.inv i1.proc i2)
  have hsl : e.slices = [(0, J.x.length)] := by
    rw [i1.sync, hone]
    simp [Cluster.sl]
    omega
  rw [hsl] at i3
  obtain ⟨s0, g1, hrow⟩ := f2_get i3 (item_ok e4)
  simp only [List.getElem?_cons_zero, Option.some.injEq] at g1
  subst g1
  -- the end
  unfold finish at h
  obtain ⟨c1, f1, h⟩ := bind_ok h
  obtain ⟨c2, f2, h⟩ := bind_ok h
  unfold addexternal at f1
  rw [withPeaks_eq] at f1
  simp only [Except.ok.injEq] at f1
  have hp1 := (c37_sort hS.sorts false pos (J.ip ++ c0.model)).1
  have hk1 : Kept (J.ip ++ c0.model) c1.model := by rw [← f1]; exact Kept.of_perm hp1
  obtain ⟨p1, hk2⟩ := pruned_of hS f2
  have hk12 := hk1.trans hk2
  have hyy : c1.y = J.y := by
    rw [← f1]
    show List.zipWith _ c0.r c0.y = J.y
    rw [hrow.of_.r, hrow.of_.y, ← hyd]
    exact zip_back J.x J.y hx.leny
  have hr1 : c1.r = J.x := by rw [← f1]; exact hrow.of_.r
  have he1 : c1.err = J.dy := by rw [← f1]; exact hrow.of_.err
  have hs1 : c1.slice = some ⟨some 0, J.x.length⟩ := by rw [← f1]; exact hrow.slice
  have hm1 : c1.method = J.method := by rw [← f1]; exact hrow.of_.method
  have hf1 : ∀ f ∈ c1.funcs, f ∈ J.funcs := by rw [← f1]; exact hrow.of_.funcs
  have hb1 : c1.baseline = some J.bl := by rw [← f1]; exact hrow.of_.bl
  have q : ∀ d : Cluster K, d = { c1 with model := d.model } → d.r = J.x ∧ d.y = J.y ∧ d.err = J.dy ∧
      d.slice = some ⟨some 0, J.x.length⟩ ∧ d.method = J.method ∧ (∀ f ∈ d.funcs, f ∈ J.funcs) ∧
      d.baseline = some J.bl := by
    intro d hd
    rw [hd]; exact ⟨hr1, hyy, he1, hs1, hm1, hf1, hb1⟩
  obtain ⟨r2, y2, er2, s2, m2, fu2, b2⟩ := q c2 p1
  cases top with
  | false =>
    simp only [Bool.false_eq_true, if_false, pure, Except.pure, Except.ok.injEq] at h
    subst h
    exact ⟨r2, y2, er2, s2, m2, fu2, Or.inl b2, Or.inl ⟨_, hrow.of_.keys, hk12⟩⟩
  | true =>
    simp only [if_true] at h
    obtain ⟨d1, d2, d3⟩ := fit_data (hS.ctame c2) { fitbaseline := true } c2
    unfold fitted at h
    generalize hfit : ModelCluster.fit ((final W).env c2) { fitbaseline := true } c2 = F at h d1 d2 d3
    obtain ⟨u, c3, l⟩ := F
    simp only at d1 d2 d3
    cases u with
    | error e => simp at h
    | ok u =>
      simp only [Except.ok.injEq] at h
      subst h
      refine ⟨by rw [d1.r, r2], by rw [d1.y, y2], by rw [d1.err, er2], by rw [d1.slice, s2], by rw [d1.method, m2],
        by rw [d1.funcs]; exact fu2, by rw [← b2]; exact d3, ?_⟩
      rcases d2 with d2 | ⟨hnil, -, p, hp, d2⟩
      · exact Or.inl ⟨_, hrow.of_.keys, hk12.trans d2⟩
      · right
        constructor
        · have := hk12.hard
          rw [hnil, hard_append] at this
          have h0 : hard ([] : List (Part K)) = [] := rfl
          rw [h0] at this
          exact (List.append_eq_nil_iff.1 (List.nil_perm.1 this)).1
        · refine Keys.of_kept (m := [p]) ?_ d2
          intro q hq
          rw [List.mem_singleton.1 hq]
          exact hQ c2 p fu2 hp

end Verif.Parts.Extract
