import Verif.Extract.Lemmas

/-!
# The main loop of `extract_single` refines the clustering skeleton
-/

set_option linter.unusedSectionVars false

namespace Verif.Parts.Extract

open Verif.Py Verif.PeakList Verif.Parts.ModelCluster

section Lists

variable {α β : Type} {R : α → β → Prop}

theorem f2_get {l : List α} {m : List β} (h : List.Forall₂ R l m) {i : ℕ} {a : α} (ha : l[i]? = some a) :
    ∃ b, m[i]? = some b ∧ R a b := by
  induction h generalizing i with
  | nil => simp at ha
  | cons h1 _ ih =>
    match i with
    | 0 => simp only [List.getElem?_cons_zero, Option.some.injEq] at ha; subst ha; exact ⟨_, rfl, h1⟩
    | i + 1 => simp only [List.getElem?_cons_succ] at ha ⊢; exact ih ha

theorem f2_set {l : List α} {m : List β} (h : List.Forall₂ R l m) (i : ℕ) {a : α} {b : β} (hab : R a b) :
    List.Forall₂ R (l.set i a) (m.set i b) := by
  induction h generalizing i with
  | nil => exact .nil
  | cons h1 h2 ih =>
    match i with
    | 0 => exact .cons hab h2
    | i + 1 => exact .cons h1 (ih i)

/-- Replacing an element by one related to the same partner. -/
theorem f2_set' {l : List α} {m : List β} (h : List.Forall₂ R l m) (i : ℕ) {a : α} {b : β} (hb : m[i]? = some b)
    (hab : R a b) : List.Forall₂ R (l.set i a) m := by
  have := f2_set h i hab
  rwa [show m.set i b = m from by
    apply List.ext_getElem?
    intro j
    rw [List.getElem?_set]
    by_cases hij : i = j
    · subst hij; rw [if_pos rfl, hb]; split
      · rfl
      · rename_i h; rw [List.getElem?_eq_none (by omega)] at hb; simp at hb
    · rw [if_neg hij]] at this

theorem f2_erase {l : List α} {m : List β} (h : List.Forall₂ R l m) (i : ℕ) :
    List.Forall₂ R (l.eraseIdx i) (m.eraseIdx i) := by
  induction h generalizing i with
  | nil => exact .nil
  | cons h1 h2 ih =>
    match i with
    | 0 => exact h2
    | i + 1 => exact .cons h1 (ih i)

theorem f2_insert {l : List α} {m : List β} (h : List.Forall₂ R l m) (i : ℕ) {a : α} {b : β} (hab : R a b) :
    List.Forall₂ R (l.insertIdx i a) (m.insertIdx i b) := by
  induction h generalizing i with
  | nil =>
    match i with
    | 0 => exact .cons hab .nil
    | i + 1 => exact .nil
  | cons h1 h2 ih =>
    match i with
    | 0 => exact .cons hab (.cons h1 h2)
    | i + 1 => exact .cons h1 (ih i)

theorem bind_ok {γ : Type} {a : Res γ} {δ : Type} {f : γ → Res δ} {d : δ} (h : (a >>= f) = .ok d) :
    ∃ c, a = .ok c ∧ f c = .ok d := by
  cases a with
  | error e => simp [bind, Except.bind] at h
  | ok c => exact ⟨c, rfl, h⟩

theorem item_ok {γ : Type} {l : List γ} {i : ℕ} {a : γ} (h : item l i = .ok a) : l[i]? = some a := by
  unfold item at h
  split at h
  · rename_i b heq; simp only [Except.ok.injEq] at h; rw [heq, h]
  · simp at h

end Lists

variable {K : Type} [Field K] [LinearOrder K]
variable {W : World K} {J : Job K} {Q : Key K → Prop} {r y err : List K} {bl : Option (Part K)}

/-! ### Neighbourhood, recursion -/

theorem hood_keys {x y dy : List K} {c : Cluster K} {b : K} {h : Hood K} (hk : Keys Q c.model)
    (hh : hood W x y dy c b = .ok h) : Keys Q h.near ∧ Keys Q h.other := by
  unfold hood at hh
  split at hh
  · simp at hh
  · simp only [Except.ok.injEq] at hh
    subst hh
    have : ∀ l : List ℕ, ∀ p ∈ l.filterMap (fun (i : ℕ) => c.model[i]?), p ∈ c.model := by
      intro l p hp
      obtain ⟨i, -, hi⟩ := List.mem_filterMap.1 hp
      exact List.mem_of_getElem? hi
    exact ⟨hk.of_subset (this _), hk.of_subset (this _)⟩

/-- Data as every search gets them: increasing coordinates, as many values and uncertainties. -/
structure Data (r y e : List K) : Prop where
  inc : Cluster.Increasing r
  leny : y.length = r.length
  lene : e.length = r.length

theorem getSlice_sublist {α : Type} (l : List α) (s : Option (ℕ × ℕ)) : (getSlice l s).Sublist l :=
  (List.take_sublist _ _).trans (List.drop_sublist _ _)

theorem hood_data {x y dy : List K} (hx : Data x y dy) {c : Cluster K} {b : K} {h : Hood K}
    (hh : hood W x y dy c b = .ok h) : Data h.x h.y h.err := by
  unfold hood at hh
  split at hh
  · simp at hh
  · simp only [Except.ok.injEq] at hh
    subst hh
    refine ⟨hx.inc.sublist (getSlice_sublist _ _), ?_, ?_⟩
    · simp only [List.length_zipWith, length_getSlice, hx.leny, min_self]
    · simp only [length_getSlice, hx.lene]

theorem residual_data {c : Cluster K} (h : Data c.r c.y c.err) : Data c.r (residual W c) c.err :=
  ⟨h.inc, by unfold residual; rw [List.length_zipWith, h.leny, min_self], h.lene⟩

/-- A recursive search, if it returns, returns peaks that satisfy `Q`. -/
def Finds (rec : Deeper K) (Q : Key K → Prop) : Prop :=
  ∀ f, rec = some f → ∀ r y e c, Data r y e → f r y e = .ok c → Keys Q c.model

theorem deepen_keys (hS : Sane W) (hQ : Supplies W J Q) {rec : Deeper K} (hR : Finds rec Q) {c d : Cluster K}
    {must : Bool} (hc : Data c.r c.y c.err) (hf : ∀ f ∈ c.funcs, f ∈ J.funcs) (hk : Keys Q c.model)
    (hd : deepen W J rec c must = .ok d) : Keys Q d.model := by
  unfold deepen at hd
  split at hd
  · simp at hd
  · split at hd
    · split at hd
      · simp only [Except.ok.injEq] at hd; subst hd; exact hk
      · rename_i f
        split at hd
        · simp at hd
        · rename_i found heq
          exact augmented_keys hS hQ hf hk (hR f rfl _ _ _ _ (residual_data hc) heq) hd
    · simp only [Except.ok.injEq] at hd; subst hd; exact hk

theorem boundary_of (hS : Sane W) (hQ : Supplies W J Q) {rec : Deeper K} (hR : Finds rec Q) {c d : Cluster K}
    {yd : List K} (hx : Data J.x yd J.dy) {j : ℕ} (h : Of J Q r y err bl c) (hd : boundary W J rec yd c j = .ok d) :
    Of J Q r y err bl d ∧ d.slice = c.slice := by
  unfold boundary at hd
  obtain ⟨f1, h1, hd⟩ := bind_ok hd
  obtain ⟨f2, h2, hd⟩ := bind_ok hd
  obtain ⟨bo, -, hd⟩ := bind_ok hd
  obtain ⟨ho, h4, hd⟩ := bind_ok hd
  obtain ⟨a1, h5, hd⟩ := bind_ok hd
  obtain ⟨a2, h6, hd⟩ := bind_ok hd
  obtain ⟨f3, h7, hd⟩ := bind_ok hd
  obtain ⟨o1, s1, -⟩ := copyOf_of h h1
  obtain ⟨o2, s2, -⟩ := fitted_of hS hQ (o := { justify := true }) rfl o1 h2
  obtain ⟨k1, k2⟩ := hood_keys o2.keys h4
  obtain ⟨oa, -, -⟩ := newCluster_of k1 h5
  have hda := hood_data hx h4
  have ka := deepen_keys hS hQ hR (by rw [oa.r, oa.y, oa.err]; exact hda) oa.funcs oa.keys h6
  obtain ⟨o3, s3, -⟩ := withPeaks_of hS o2 k2 ka h7
  obtain ⟨o4, s4, -⟩ := fitted_of hS hQ (o := { justify := true }) rfl o3 hd
  exact ⟨o4, by rw [s4, s3, s2, s1]⟩

/-! ### Joining -/

theorem dedup_mem [DecidableEq K] (b : K) (n : ℕ) (m : List (Part K)) : ∀ p ∈ dedupLoop b n m, p ∈ m := by
  induction n generalizing m with
  | zero => intro p hp; exact hp
  | succ n ih =>
    intro p hp
    unfold dedupLoop at hp
    simp only at hp
    have := ih _ p hp
    split at this
    · exact (List.eraseIdx_sublist _ _).subset this
    · exact this

theorem joinedModel_keys (hS : Sane W) {m1 m2 a b : List (Part K)} {bx by_ : K} (h1 : Keys Q m1) (h2 : Keys Q m2) (ha : Keys Q a)
    (hb : Keys Q b) : Keys Q (joinedModel W.as W.sc W.val bx by_ m1 m2 a b) := by
  unfold joinedModel
  split
  · unfold joinModels
    simp only
    refine matchAt_Keys hS ?_ _ _
    refine (ha.append hb).of_subset ?_
    intro p hp
    have := dedup_mem _ _ _ p hp
    obtain ⟨i, -, hi⟩ := List.mem_filterMap.1 this
    exact List.mem_of_getElem? hi
  · split
    · exact h1
    · exact h2

/-- The extent `[s.1, s.2)` of a cluster of the main loop. -/
structure Row (J : Job K) (Q : Key K → Prop) (r y err : List K) (bl : Option (Part K)) (c : Cluster K) (s : ℕ × ℕ) :
    Prop where
  of_ : Of J Q r y err bl c
  slice : c.slice = some ⟨some s.1, s.2⟩
  proper : s.1 < s.2 ∧ s.2 ≤ r.length

theorem joinAdjacent_row (hS : Sane W) {eqv : Option (Part K) → Option (Part K) → Bool} {ex : List K} {m1 m2 c : Cluster K} {s1 s2 : ℕ × ℕ}
    (h1 : Row J Q r y err bl m1 s1) (h2 : Row J Q r y err bl m2 s2)
    (hc : joinAdjacent W.as eqv W.sc W.val ex m1 m2 = .ok c) :
    ∃ j, Cluster.joinSlices s1 s2 = .ok j ∧ Row J Q r y err bl c j := by
  unfold joinAdjacent at hc
  split at hc
  · simp at hc
  split at hc
  · simp at hc
  split at hc
  · simp at hc
  split at hc
  · simp at hc
  split at hc
  · simp at hc
  rw [h1.slice, h2.slice] at hc
  simp only [Slice.indices, Option.getD_some, h1.of_.r] at hc
  obtain ⟨p1, p1'⟩ := h1.proper
  obtain ⟨p2, p2'⟩ := h2.proper
  rw [min_eq_left (by omega), min_eq_left (by omega), min_eq_left (by omega), min_eq_left (by omega)] at hc
  have key : ∀ (left right : Cluster K) (li ri : ℕ × ℕ), Keys Q left.model → Keys Q right.model →
      joinTail W.as W.sc W.val ex m1 m2 left right li ri = .ok c → li.1 < ri.2 → ri.2 ≤ r.length →
      Row J Q r y err bl c (li.1, ri.2) := by
    intro left right li ri kl kr ht q1 q2
    unfold joinTail at ht
    split at ht
    · simp only at ht
      split at ht
      · simp at ht
      · rename_i c' heq
        simp only [Except.ok.injEq] at ht
        obtain ⟨b, e, -⟩ := changeSlice_ok heq
        rw [← ht, e]
        refine ⟨⟨h1.of_.r, h1.of_.y, h1.of_.err, h1.of_.bl, h1.of_.ids, h1.of_.method, ?_, ?_⟩, rfl, q1, q2⟩
        · intro f hf
          rcases List.mem_append.1 (List.mem_dedup.1 hf) with hf | hf
          · exact h1.of_.funcs f hf
          · exact h2.of_.funcs f hf
        · exact joinedModel_keys hS h1.of_.keys h2.of_.keys kl kr
    · simp at ht
  unfold Cluster.joinSlices
  simp only
  by_cases hlt : s1.1 < s2.1
  · simp only [hlt, if_true] at hc ⊢
    by_cases ha : s2.1 ≠ s1.2
    · rw [if_pos ha] at hc; simp at hc
    · rw [if_neg ha] at hc ⊢
      exact ⟨_, rfl, key _ _ _ _ h1.of_.keys h2.of_.keys hc (by omega) p2'⟩
  · simp only [hlt, if_false] at hc ⊢
    by_cases ha : s1.1 ≠ s2.2
    · rw [if_pos ha] at hc; simp at hc
    · rw [if_neg ha] at hc ⊢
      exact ⟨_, rfl, key _ _ _ _ h2.of_.keys h1.of_.keys hc (by omega) p1'⟩

theorem variant1_keys (hS : Sane W) (hQ : Supplies W J Q) {rec : Deeper K} (hR : Finds rec Q) {h : Hood K}
    {bx by_ : K} {d : Cluster K} (hx : Data h.x h.y h.err) (hk : Keys Q h.near)
    (hd : variant1 W J rec h bx by_ = .ok d) :
    Keys Q d.model := by
  unfold variant1 at hd
  obtain ⟨a, h1, hd⟩ := bind_ok hd
  obtain ⟨oa, -⟩ := newCluster_of hk h1
  split at hd
  · obtain ⟨a', h2, hd⟩ := bind_ok hd
    obtain ⟨o2, -⟩ := reduced_of hS hQ oa h2
    exact deepen_keys hS hQ hR (by rw [o2.r, o2.y, o2.err]; exact hx) o2.funcs o2.keys hd
  · simp only [pure, Except.pure, Except.ok.injEq] at hd; subst hd; exact oa.keys

theorem variant2_keys (hS : Sane W) (hQ : Supplies W J Q) {rec : Deeper K} (hR : Finds rec Q) {h : Hood K}
    {d : Cluster K} (hx : Data h.x h.y h.err) (hk : Keys Q h.near)
    (hd : variant2 W J rec h = .ok d) : Keys Q d.model := by
  unfold variant2 at hd
  obtain ⟨a, h1, hd⟩ := bind_ok hd
  obtain ⟨oa, -⟩ := newCluster_of hk h1
  obtain ⟨a', h2, hd⟩ := bind_ok hd
  obtain ⟨o2, -⟩ := fitted_of hS hQ (o := { justify := true }) rfl oa h2
  exact deepen_keys hS hQ hR (by rw [o2.r, o2.y, o2.err]; exact hx) o2.funcs o2.keys hd

theorem joined_row (hS : Sane W) (hQ : Supplies W J Q) {rec : Deeper K} (hR : Finds rec Q) {yd : List K}
    (hx : Data J.x yd J.dy) {cl cr s1 s2 : ℕ × ℕ} {m1 m2 d : Cluster K}
    (h1 : Row J Q r y err bl m1 s1) (h2 : Row J Q r y err bl m2 s2)
    (hd : joined W J rec yd cl cr m1 m2 = .ok d) :
    ∃ j, Cluster.joinSlices s1 s2 = .ok j ∧ Row J Q r y err bl d j := by
  unfold joined at hd
  obtain ⟨new, e1, hd⟩ := bind_ok hd
  obtain ⟨xl, -, hd⟩ := bind_ok hd
  obtain ⟨xr, -, hd⟩ := bind_ok hd
  obtain ⟨yl, -, hd⟩ := bind_ok hd
  obtain ⟨yr, -, hd⟩ := bind_ok hd
  obtain ⟨h, e2, hd⟩ := bind_ok hd
  obtain ⟨a1, e3, hd⟩ := bind_ok hd
  obtain ⟨a2, e4, hd⟩ := bind_ok hd
  obtain ⟨_, -, hd⟩ := bind_ok hd
  obtain ⟨best, e5, hd⟩ := bind_ok hd
  obtain ⟨n2, e6, hd⟩ := bind_ok hd
  obtain ⟨j, hj, hr⟩ := joinAdjacent_row hS h1 h2 e1
  obtain ⟨k1, k2⟩ := hood_keys hr.of_.keys e2
  have q1 := variant1_keys hS hQ hR (hood_data hx e2) k1 e3
  have q2 := variant2_keys hS hQ hR (hood_data hx e2) k1 e4
  have q3 : Keys Q best.model := by
    unfold better at e5
    split at e5
    · simp at e5
    · simp only [Except.ok.injEq] at e5; rw [← e5]; exact q1
    · simp only [Except.ok.injEq] at e5; rw [← e5]; exact q2
  obtain ⟨o2, s2', -⟩ := withPeaks_of hS hr.of_ k2 q3 e6
  obtain ⟨o3, s3, -⟩ := fitted_of hS hQ (o := { justify := true }) rfl o2 hd
  exact ⟨j, hj, o3, by rw [s3, s2', hr.slice], hr.proper⟩

/-- The model clusters of the main loop and their extents. -/
abbrev Sync (J : Job K) (Q : Key K → Prop) (r y err : List K) (bl : Option (Part K)) (ms : List (Cluster K))
    (sl : List (ℕ × ℕ)) : Prop := List.Forall₂ (Row J Q r y err bl) ms sl

theorem joinLoop_sync (hS : Sane W) (hQ : Supplies W J Q) {rec : Deeper K} (hR : Finds rec Q) {yd : List K}
    (hx : Data J.x yd J.dy) {rows : List (ℕ × ℕ)} : ∀ (l : List ℕ) (ms ms' : List (Cluster K)) (sl : List (ℕ × ℕ)),
    Sync J Q r y err bl ms sl → joinLoop W J rec yd rows l ms = .ok ms' →
    ∃ sl', Cluster.joinLoop l sl = .ok sl' ∧ Sync J Q r y err bl ms' sl' := by
  intro l
  induction l with
  | nil =>
    intro ms ms' sl h hd
    unfold joinLoop at hd
    simp only [Except.ok.injEq] at hd
    subst hd; exact ⟨sl, rfl, h⟩
  | cons i l ih =>
    intro ms ms' sl h hd
    unfold joinLoop at hd
    obtain ⟨m1, e1, hd⟩ := bind_ok hd
    obtain ⟨m2, e2, hd⟩ := bind_ok hd
    obtain ⟨new, e3, hd⟩ := bind_ok hd
    obtain ⟨s1, g1, r1⟩ := f2_get h (item_ok e1)
    obtain ⟨s2, g2, r2⟩ := f2_get h (item_ok e2)
    obtain ⟨j, hj, hr⟩ := joined_row hS hQ hR hx r1 r2 e3
    obtain ⟨sl', e4, h'⟩ := ih _ ms' _ (f2_erase (f2_set h (i - 1) hr) i) hd
    refine ⟨sl', ?_, h'⟩
    unfold Cluster.joinLoop
    rw [show Cluster.row sl (i - 1) = s1 by simp [Cluster.row, g1], show Cluster.row sl i = s2 by simp [Cluster.row, g2],
      hj]
    exact e4

theorem atIndex_sync {ms ms' : List (Cluster K)} {sl : List (ℕ × ℕ)} {i : ℕ}
    {f : Cluster K → Res (Cluster K)} (h : Sync J Q r y err bl ms sl)
    (hf : ∀ c d, Of J Q r y err bl c → f c = .ok d → Of J Q r y err bl d ∧ d.slice = c.slice)
    (hd : atIndex ms i f = .ok ms') : Sync J Q r y err bl ms' sl := by
  unfold atIndex at hd
  split at hd
  · simp at hd
  · rename_i c hc
    split at hd
    · simp at hd
    · rename_i c' hc'
      simp only [Except.ok.injEq] at hd
      subst hd
      obtain ⟨s, hs, hr⟩ := f2_get h hc
      obtain ⟨o, e⟩ := hf c c' hr.of_ hc'
      exact f2_set' h i hs ⟨o, by rw [e]; exact hr.slice, hr.proper⟩

theorem fitAll_sync (hS : Sane W) (hQ : Supplies W J Q) : ∀ (l : List ℕ) (ms ms' : List (Cluster K))
    (sl : List (ℕ × ℕ)), Sync J Q r y err bl ms sl → fitAll W l ms = .ok ms' → Sync J Q r y err bl ms' sl := by
  intro l
  induction l with
  | nil =>
    intro ms ms' sl h hd
    unfold fitAll at hd
    simp only [Except.ok.injEq] at hd
    subst hd; exact h
  | cons a l ih =>
    intro ms ms' sl h hd
    unfold fitAll at hd
    split at hd
    · simp at hd
    · rename_i ms1 e1
      refine ih ms1 ms' sl (atIndex_sync h ?_ e1) hd
      intro c d hc hd
      obtain ⟨o, e, -⟩ := fitted_of hS hQ (o := { justify := true }) rfl hc hd
      exact ⟨o, e⟩

/-- One iteration, if it raises nothing, does to the table of clusters and to the extents of the model clusters
what the skeleton does. -/
theorem iteration_sync (hS : Sane W) (hQ : Supplies W J Q) {rec : Deeper K} (hR : Finds rec Q) {yd : List K}
    (hx : Data J.x yd J.dy) {mp : ℕ} {s0 s s' : Cluster.State K} {ms ms' : List (Cluster K)} {sl : List (ℕ × ℕ)}
    (hn : Cluster.next s0 = (.ok, s)) (hw : Cluster.WF J.x.length s.clusters)
    (h : Sync J Q J.x yd J.dy (some J.bl) ms sl)
    (hd : iteration W J rec yd mp s ms = .ok (s', ms')) :
    ∃ sl', Cluster.Extraction.step ⟨s0, sl⟩ = .next ⟨s', sl'⟩ ∧ Sync J Q J.x yd J.dy (some J.bl) ms' sl' := by
  have hcut : (Cluster.cut s (s.lastcluster.getD 0)).1 < (Cluster.cut s (s.lastcluster.getD 0)).2 ∧
      (Cluster.cut s (s.lastcluster.getD 0)).2 ≤ J.x.length := by
    unfold Cluster.cut
    simp only
    by_cases hl : s.lastcluster.getD 0 < s.clusters.length
    · have hm : Cluster.row s.clusters (s.lastcluster.getD 0) ∈ s.clusters := by
        unfold Cluster.row
        rw [List.getD_eq_getElem?_getD, List.getElem?_eq_getElem hl]
        exact List.getElem_mem hl
      have := hw.valid _ hm
      omega
    · have : Cluster.row s.clusters (s.lastcluster.getD 0) = (0, 0) := by
        unfold Cluster.row
        rw [List.getD_eq_getElem?_getD, List.getElem?_eq_none (by omega)]
        rfl
      rw [this]
      obtain ⟨c, cs, hcs⟩ := List.exists_cons_of_ne_nil hw.nonempty
      have := hw.valid c (by rw [hcs]; exact List.mem_cons_self)
      simp only
      omega
  unfold iteration at hd
  simp only at hd
  obtain ⟨ms1, e1, hd⟩ := bind_ok hd
  obtain ⟨adj, e2, hd⟩ := bind_ok hd
  split at hd
  · simp at hd
  rename_i ha1
  split at hd
  · simp at hd
  rename_i ha2
  obtain ⟨ms2, e3, hd⟩ := bind_ok hd
  obtain ⟨ms3, e4, hd⟩ := bind_ok hd
  obtain ⟨ms4, e5, hd⟩ := bind_ok hd
  obtain ⟨ms5, e6, hd⟩ := bind_ok hd
  have hadj : Cluster.findAdjacent s = .ok adj := by
    split at e2
    · simp at e2
    · rename_i a heq; simp only [Except.ok.injEq] at e2; rw [heq, e2]
  obtain ⟨slu, hslu⟩ : ∃ l, l = (if s.clusters.length > sl.length then sl.insertIdx (s.lastcluster.getD 0) (Cluster.cut s (s.lastcluster.getD 0))
        else sl.set (s.lastcluster.getD 0) (Cluster.cut s (s.lastcluster.getD 0))) := ⟨_, rfl⟩
  have hup : Sync J Q J.x yd J.dy (some J.bl) ms1 slu := by
    rw [hslu]
    unfold update at e1
    rw [h.length_eq] at e1
    by_cases hlen : sl.length < s.clusters.length
    · rw [if_pos hlen] at e1
      rw [if_pos hlen]
      split at e1
      · simp at e1
      · rename_i c hc
        simp only [Except.ok.injEq] at e1
        subst e1
        obtain ⟨o, sli, -⟩ := newCluster_of Keys.nil hc
        exact f2_insert h _ ⟨o, sli, hcut⟩
    · rw [if_neg hlen] at e1
      rw [if_neg hlen]
      unfold atIndex at e1
      split at e1
      · simp at e1
      · rename_i c hc
        split at e1
        · simp at e1
        · rename_i c' hc'
          simp only [Except.ok.injEq] at e1
          subst e1
          obtain ⟨s1, -, hr⟩ := f2_get h hc
          obtain ⟨o, sli⟩ := reslice_of hr.of_ hc'
          exact f2_set h _ ⟨o, sli, hcut⟩
  have h2 := fitAll_sync hS hQ _ _ _ _ hup e3
  have h3 : Sync J Q J.x yd J.dy (some J.bl) ms3 slu := by
    refine atIndex_sync h2 ?_ e4
    intro c d hc hd
    obtain ⟨o, e, -⟩ := contingent_of hS hQ hc hd
    exact ⟨o, e⟩
  have h4 : Sync J Q J.x yd J.dy (some J.bl) ms4 slu := by
    unfold atBoundary at e5
    split at e5
    · refine atIndex_sync h3 ?_ e5
      intro c d hc hd
      exact boundary_of hS hQ hR hx hc hd
    · simp only [Except.ok.injEq] at e5
      rw [← e5]; exact h3
  obtain ⟨sl', e7, h5⟩ := joinLoop_sync hS hQ hR hx _ _ _ _ h4 e6
  have hlen1 := hup.length_eq
  have hstep : ∀ (X : Cluster.StepResult K),
      (if adj.flatten.length > 0 then
        match Cluster.combine s [adj.flatten] with
        | (.ok, s'') => Cluster.StepResult.next ⟨s'', sl'⟩
        | (o, _) => .raised o
      else .next ⟨s, sl'⟩) = X → Cluster.Extraction.step ⟨s0, sl⟩ = X := by
    intro X hX
    unfold Cluster.Extraction.step
    simp only [hn, hadj]
    rw [← hslu, if_neg (by rw [← hlen1]; exact ha1), if_neg ha2]
    rw [e7]
    exact hX
  by_cases hpos : 0 < adj.flatten.length
  · rw [if_pos hpos] at hd
    rw [if_pos hpos] at hstep
    split at hd
    · rename_i s'' heq
      simp only [pure, Except.pure, Except.ok.injEq, Prod.mk.injEq] at hd
      obtain ⟨rfl, rfl⟩ := hd
      exact ⟨sl', hstep _ (by rw [heq]), h5⟩
    · simp at hd
  · rw [if_neg hpos] at hd
    rw [if_neg hpos] at hstep
    simp only [pure, Except.pure, Except.ok.injEq, Prod.mk.injEq] at hd
    obtain ⟨rfl, rfl⟩ := hd
    exact ⟨sl', hstep _ rfl, h5⟩

end Verif.Parts.Extract
