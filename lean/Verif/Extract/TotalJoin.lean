import Verif.Extract.TotalSteps
import Verif.Extraction.Range
import Verif.ModelCluster.Join

/-!
# Boundaries and joins raise nothing but ValueError, and nothing at all when peaks stay right of the data's start
-/

set_option linter.unusedSectionVars false

namespace Verif.Parts.Extract

open Verif.Py Verif.PeakList Verif.Parts.ModelCluster

variable {K : Type} [Field K] [LinearOrder K]
variable {W : World K} {J : Job K} {Q : Key K → Prop} {r y err : List K} {bl : Option (Part K)} {V : Prop}

/-! ### The neighbourhood of a border -/

theorem index_mono {x : List K} (hx : Cluster.Increasing x) {i j : ℕ} {a b : K} (ha : x[i]? = some a) (hb : x[j]? = some b)
    (h : i ≤ j) : a ≤ b := by
  obtain ⟨h1, rfl⟩ := List.getElem?_eq_some_iff.1 ha
  obtain ⟨h2, rfl⟩ := List.getElem?_eq_some_iff.1 hb
  rcases Nat.lt_or_eq_of_le h with h | h
  · exact le_of_lt (List.pairwise_iff_getElem.1 hx i j h1 h2 h)
  · subst h; exact le_rfl

theorem count_lt {x : List K} (hx : Cluster.Increasing x) (v : K) {i : ℕ} {a : K} (ha : x[i]? = some a) :
    i < (x.takeWhile (fun a => decide (a < v))).length ↔ a < v := by
  obtain ⟨h1, rfl⟩ := List.getElem?_eq_some_iff.1 ha
  have := Extraction.takeWhile_index (· < ·) (fun a => decide (a < v))
    (by intro a b hab hb; simp only [decide_eq_true_eq] at *; exact lt_trans hab hb) x hx i h1
  simpa using this

theorem pivot_left {ps : List K} (b : K) {i : ℕ} (h : i < Extraction.pivot ps b) :
    ∃ a, ps[i]? = some a ∧ a < b := by
  unfold Extraction.pivot at h
  have hs := List.takeWhile_prefix (fun p => decide (p < b)) (l := ps)
  have h1 := List.all_takeWhile (p := fun p => decide (p < b)) (l := ps)
  rw [List.all_eq_true] at h1
  have h1 := h1 _ (List.getElem_mem h)
  simp only [decide_eq_true_eq] at h1
  refine ⟨_, ?_, h1⟩
  rw [hs.getElem h]
  exact List.getElem?_eq_getElem _

theorem pivot_le (ps : List K) (b : K) : Extraction.pivot ps b ≤ ps.length :=
  (List.takeWhile_sublist _).length_le

theorem head_slice {x : List K} {a b : ℕ} {v : K} (h : a < b) (hv : x[a]? = some v) :
    (getSlice x (some (a, b))).head? = some v := by
  have ha := getElem?_lt hv
  unfold getSlice bounds
  simp only
  rw [Nat.min_eq_left (by omega), List.head?_take, if_neg (by omega), List.head?_drop, hv]

/-- The interpeak range of a neat cluster is not empty, and starts left of the near peaks. -/
theorem interpeak {x ps : List K} (hx : Cluster.Increasing x) (hp : ps.Pairwise (· ≤ ·)) {lo hi : ℕ} (h1 : lo < hi)
    (h2 : hi ≤ x.length) {v w b : K} (hv : x[lo]? = some v) (hw : x[hi - 1]? = some w) (hb : b ≤ w)
    (hr : ∀ a ∈ ps, v < a) :
    ∃ v', x[Extraction.leftData x ps lo (Extraction.pivot ps b)]? = some v' ∧ v ≤ v' ∧
      Extraction.leftData x ps lo (Extraction.pivot ps b) ≤
        Extraction.rightData x ps hi ps.length (Extraction.pivot ps b) ∧
      ∀ (i : ℕ) a, i ∈ Extraction.nearIdx ps.length (Extraction.pivot ps b) → ps[i]? = some a → v' < a := by
  have hlast : ∀ (i : ℕ) a, i < Extraction.pivot ps b → ps[i]? = some a → a < b := by
    intro i a hi ha
    obtain ⟨a', h, h'⟩ := pivot_left b hi
    rw [ha] at h; simp only [Option.some.injEq] at h; rw [h]; exact h'
  have hple := pivot_le ps b
  generalize Extraction.pivot ps b = p at *
  have hright : ∀ L, L ≤ hi - 1 → L ≤ x.length →
      (∀ a, p + 1 < ps.length → ps[p + 1]? = some a → L ≤ (x.takeWhile (fun c => decide (c < a))).length + 1) →
      L ≤ Extraction.rightData x ps hi ps.length p := by
    intro L hL hL' hc
    unfold Extraction.rightData
    by_cases h : p = ps.length ∨ p + 1 = ps.length
    · rw [if_pos h]; exact hL
    · rw [if_neg h]
      have hlt : p + 1 < ps.length := by omega
      rw [List.getElem?_eq_getElem hlt]
      simp only
      have := hc _ hlt (List.getElem?_eq_getElem hlt)
      omega
  unfold Extraction.leftData
  by_cases h : p ≤ 1
  · rw [if_pos h]
    refine ⟨v, hv, le_rfl, hright lo (by omega) (by omega) ?_, ?_⟩
    · intro a _ ha
      have := (count_lt hx a hv).2 (hr a (List.mem_of_getElem? ha))
      omega
    · intro i a _ ha
      exact hr a (List.mem_of_getElem? ha)
  · rw [if_neg h]
    have hl2 : p - 2 < ps.length := by omega
    obtain ⟨u, hu⟩ : ∃ u, ps[p - 2]? = some u := ⟨_, List.getElem?_eq_getElem hl2⟩
    rw [hu]
    simp only
    have c1 := (count_lt hx u hv).2 (hr u (List.mem_of_getElem? hu))
    have c2 := mt (count_lt hx u hw).1 (not_lt.2 (le_trans (le_of_lt (hlast _ _ (by omega) hu)) hb))
    have hmono : ∀ (i : ℕ) a, p - 2 ≤ i → ps[i]? = some a → u ≤ a := by
      intro i a hi ha
      obtain ⟨q1, rfl⟩ := List.getElem?_eq_some_iff.1 hu
      obtain ⟨q2, rfl⟩ := List.getElem?_eq_some_iff.1 ha
      rcases Nat.lt_or_eq_of_le hi with h | h
      · exact List.pairwise_iff_getElem.1 hp _ _ q1 q2 h
      · subst h; exact le_rfl
    generalize hcnt : (x.takeWhile (fun a => decide (a < u))).length = cnt at *
    have hlen : cnt - 1 < x.length := by omega
    obtain ⟨v', hv'⟩ : ∃ v', x[cnt - 1]? = some v' := ⟨_, List.getElem?_eq_getElem hlen⟩
    have hvu : v' < u := by
      rw [← count_lt hx u hv', hcnt]; omega
    refine ⟨v', hv', index_mono hx hv hv' (by omega), hright _ (by omega) (by omega) ?_, ?_⟩
    · intro a _ ha
      have := (count_lt hx a hv').2 (lt_of_lt_of_le hvu (hmono _ _ (by omega) ha))
      omega
    · intro i a hi ha
      refine lt_of_lt_of_le hvu (hmono i a ?_ ha)
      unfold Extraction.nearIdx at hi
      rcases List.mem_append.1 hi with h | h
      · split at h
        · simp at h
        · rw [List.mem_singleton] at h; omega
      · split at h
        · simp at h
        · rw [List.mem_singleton] at h; omega

theorem hood_tot {x yd dy : List K} (hx : Cluster.Increasing x) {c : Cluster K} {lo hi : ℕ} (hs : c.slice = some ⟨some lo, hi⟩)
    (h1 : lo < hi) (h2 : hi ≤ x.length) {v w b : K} (hv : x[lo]? = some v) (hw : x[hi - 1]? = some w) (hb : b ≤ w)
    (hn : Neat V v c.model) :
    ∃ h, hood W x yd dy c b = .ok h ∧ (∀ p ∈ h.near, p ∈ c.model) ∧ (∀ p ∈ h.other, p ∈ c.model) ∧
      (V ∨ ∃ v', h.x.head? = some v' ∧ v ≤ v' ∧ ∀ p ∈ h.near, v' < pos p) := by
  unfold hood
  rw [hs]
  simp only [Slice.indices, Option.getD_some]
  rw [min_eq_left (by omega), min_eq_left h2]
  have hsub : ∀ l : List ℕ, ∀ p ∈ l.filterMap (fun (i : ℕ) => c.model[i]?), p ∈ c.model := by
    intro l p hp
    obtain ⟨i, -, hi⟩ := List.mem_filterMap.1 hp
    exact List.mem_of_getElem? hi
  refine ⟨_, rfl, hsub _, hsub _, ?_⟩
  rcases hn with hn | ⟨ho, hr⟩
  · exact Or.inl hn
  right
  obtain ⟨v', e1, e2, e3, e4⟩ := interpeak (ps := c.model.map pos) hx
    (List.pairwise_map.2 ho) h1 h2 hv hw hb (by
      intro a ha
      obtain ⟨p, hp, rfl⟩ := List.mem_map.1 ha
      exact hr p hp)
  refine ⟨v', head_slice (by omega) e1, e2, ?_⟩
  intro p hp
  obtain ⟨i, hi, hpi⟩ := List.mem_filterMap.1 hp
  exact e4 i (pos p) hi (by rw [List.getElem?_map, hpi]; rfl)

/-! ### Clusters of the main loop -/

/-- A cluster of the main loop, in order and right of its first point unless `V`. -/
structure NRow (V : Prop) (J : Job K) (Q : Key K → Prop) (yd : List K) (c : Cluster K) (s : ℕ × ℕ) : Prop where
  row : Row J Q J.x yd J.dy (some J.bl) c s
  neat : ∀ v, J.x[s.1]? = some v → Neat V v c.model

theorem Row.starts {c : Cluster K} {s : ℕ × ℕ} (h : Row J Q r y err bl c s) :
    ∃ v, r[s.1]? = some v ∧ Starts c v := by
  have := h.proper
  have hl : s.1 < r.length := by omega
  refine ⟨_, List.getElem?_eq_getElem hl, ?_⟩
  exact starts_part h.of_.r h.slice this.1 (List.getElem?_eq_getElem hl)

theorem Row.lens {c : Cluster K} {s : ℕ × ℕ} (hd : Data r y err) (h : Row J Q r y err bl c s) :
    c.y.length = c.r.length ∧ c.err.length = c.r.length := by
  rw [h.of_.r, h.of_.y, h.of_.err]; exact ⟨hd.leny, hd.lene⟩

/-- A whole cluster of a neighbourhood. -/
theorem newCluster_hood (m : List (Part K)) (bl : Option (Part K)) {r y err : List K} (hd : Data r y err) :
    Ends (r = []) (newCluster W J m bl r y err (some ⟨none, r.length⟩)) (fun _ => True) := by
  have := newCluster_whole (W := W) (J := J) m bl hd.leny hd.lene (s := some ⟨none, r.length⟩) (Or.inr rfl)
  by_cases h : r = []
  · exact Or.inr ⟨h, this.2 h⟩
  · obtain ⟨d, hd⟩ := this.1 h
    exact Or.inl ⟨d, hd, trivial⟩

/-- What a neighbourhood gives: near peaks right of its first point, other peaks right of the cluster's. -/
structure HoodOk (V : Prop) (Q : Key K → Prop) (v : K) (h : Hood K) : Prop where
  data : Data h.x h.y h.err
  near : Keys Q h.near
  other : Keys Q h.other
  right : V ∨ ∃ v', h.x.head? = some v' ∧ v ≤ v' ∧ ∀ p ∈ h.near, v' < pos p
  stay : Right V v h.other

theorem hood_ok {yd : List K} (hx : Data J.x yd J.dy) {c : Cluster K} {s : ℕ × ℕ}
    (h : NRow V J Q yd c s) {v w b : K} (hv : J.x[s.1]? = some v) (hw : J.x[s.2 - 1]? = some w) (hb : b ≤ w) :
    ∃ h, hood W J.x yd J.dy c b = .ok h ∧ HoodOk V Q v h := by
  obtain ⟨ho, e1, e2, e3, e4⟩ := hood_tot (W := W) (yd := yd) (dy := J.dy) hx.inc h.row.slice h.row.proper.1 h.row.proper.2 hv hw hb
    (h.neat v hv)
  obtain ⟨k1, k2⟩ := hood_keys h.row.of_.keys e1
  exact ⟨ho, e1, hood_data hx e1, k1, k2, e4, (h.neat v hv).right.subset e3⟩

/-- The cluster made from a neighbourhood. -/
theorem hood_cluster {v : K} {h : Hood K} (hh : HoodOk V Q v h) :
    Ends V (newCluster W J h.near (some J.bl) h.x h.y h.err (some ⟨none, h.x.length⟩)) (fun a =>
      Of J Q h.x h.y h.err (some J.bl) a ∧ ∃ v', h.x.head? = some v' ∧ Starts a v' ∧ Right V v' a.model ∧ (V ∨ v ≤ v')) := by
  rcases newCluster_hood (W := W) (J := J) h.near (some J.bl) hh.data with ⟨a, ha, -⟩ | ⟨h0, he⟩
  · left
    refine ⟨a, ha, ?_⟩
    obtain ⟨o, sl, hm, -⟩ := newCluster_of hh.near ha
    simp only [Option.getD_some] at sl
    refine ⟨o, ?_⟩
    have hne : h.x ≠ [] := by
      intro h0
      rw [(newCluster_whole (W := W) (J := J) h.near (some J.bl) hh.data.leny hh.data.lene (Or.inr rfl)).2 h0] at ha
      simp at ha
    obtain ⟨v0, t, e⟩ := List.exists_cons_of_ne_nil hne
    have hv0 : h.x.head? = some v0 := by rw [e]; rfl
    refine ⟨v0, hv0, starts_whole o.r sl hv0, ?_, ?_⟩
    · rcases hh.right with h | ⟨v', e1, e2, e3⟩
      · exact Or.inl h
      · rw [hv0] at e1
        simp only [Option.some.injEq] at e1
        rw [hm, e1]; exact Or.inr e3
    · rcases hh.right with h | ⟨v', e1, e2, e3⟩
      · exact Or.inl h
      · rw [hv0] at e1
        simp only [Option.some.injEq] at e1
        rw [e1]; exact Or.inr e2
  · right
    refine ⟨?_, he⟩
    rcases hh.right with h | ⟨v', e1, -⟩
    · exact h
    · rw [h0] at e1; simp at e1

theorem Right.lower {v v' : K} {m : List (Part K)} (h : Right V v' m) (hv : V ∨ v ≤ v') : Right V v m := by
  rcases hv with hv | hv
  · exact Or.inl hv
  · exact h.weaken hv

/-- Peaks put together again are in order. -/
theorem withPeaks_tot (hS : Sane W) {c : Cluster K} {v : K} {other new : List (Part K)} (h1 : Right V v other)
    (h2 : Right V v new) :
    ∃ d, withPeaks W c other new = .ok d ∧ Neat V v d.model := by
  refine ⟨_, withPeaks_eq c other new, ?_⟩
  rcases h2.append h1 with h | h
  · exact Or.inl h
  · right
    refine ⟨sort_ordered hS.sorts _, ?_⟩
    intro p hp
    exact h p ((c37_sort hS.sorts false pos _).1.mem_iff.1 hp)

theorem boundary_tot (hS : Sane W) (hC : Calm W) (hV : V ∨ Confined W) (hQ : Supplies W J Q)
    (hrem : ∀ k, Q k → k.2.2.1 = true) {rec : Deeper K} (hF : Finds rec Q) (hR : RecEnds V rec) {yd : List K}
    (hx : Data J.x yd J.dy) {c : Cluster K} {s : ℕ × ℕ} {j : ℕ} (hj : j < s.2) (h : NRow V J Q yd c s) :
    Ends V (boundary W J rec yd c j) (fun d => NRow V J Q yd d s) := by
  have hp := h.row.proper
  obtain ⟨ly, le⟩ := h.row.lens hx
  obtain ⟨v, hv, hst⟩ := h.row.starts
  have key : Ends V (boundary W J rec yd c j) (fun d => Neat V v d.model) := by
    unfold boundary
    obtain ⟨f1, e1⟩ := copyOf_tot (W := W) ly le h.row.slice hp.1 (by rw [h.row.of_.r]; omega)
    obtain ⟨o1, s1, m1⟩ := copyOf_of h.row.of_ e1
    refine Ends.step e1 ?_
    have st1 : Starts f1 v := starts_part o1.r (by rw [s1]; exact h.row.slice) hp.1 hv
    obtain ⟨f2, e2, -, n2⟩ := fitted_tot hS hC hV (o := { justify := true }) rfl st1
    obtain ⟨o2, s2, -⟩ := fitted_of hS hQ (o := { justify := true }) rfl o1 e2
    refine Ends.step e2 ?_
    have r2 : NRow V J Q yd f2 s := by
      refine ⟨⟨o2, by rw [s2, s1, h.row.slice], hp⟩, ?_⟩
      intro v2 hv2
      rw [hv] at hv2
      simp only [Option.some.injEq] at hv2
      rw [← hv2]; exact n2 (by rw [m1]; exact h.neat v hv)
    have hjl : j < J.x.length := by omega
    refine Ends.bind (P := fun d => J.x[j]? = some d) (Or.inl ⟨J.x[j], by rw [List.getElem?_eq_getElem hjl], List.getElem?_eq_getElem hjl⟩) ?_
    intro b _ hb
    have hl2 : s.2 - 1 < J.x.length := by omega
    obtain ⟨ho, e3, hh⟩ := hood_ok (W := W) hx r2 hv (List.getElem?_eq_getElem hl2)
      (index_mono hx.inc hb (List.getElem?_eq_getElem hl2) (by omega))
    refine Ends.step e3 ?_
    refine Ends.bind (hood_cluster hh) ?_
    rintro a - ⟨oa, v', hv', sa, ra, hle⟩
    refine Ends.bind (deepen_tot hS hC hV hQ hrem hF hR (must := decide (0 < ho.near.length)) oa hh.data hv' sa ra) ?_
    rintro a2 - ⟨ra2, -⟩
    obtain ⟨f3, e4, n3⟩ := withPeaks_tot (V := V) hS (c := f2) hh.stay (ra2.lower hle)
    refine Ends.step e4 ?_
    rw [withPeaks_eq] at e4
    simp only [Except.ok.injEq] at e4
    have st3 : Starts f3 v := by
      refine starts_part (r := J.x) ?_ ?_ hp.1 hv
      · rw [← e4]; exact o2.r
      · rw [← e4]; exact r2.row.slice
    obtain ⟨f4, e5, -, n4⟩ := fitted_tot hS hC hV (o := { justify := true }) rfl st3
    exact Or.inl ⟨f4, e5, n4 n3⟩
  refine key.mono ?_
  intro d hd hn
  obtain ⟨o, sl⟩ := boundary_of hS hQ hF hx h.row.of_ hd
  refine ⟨⟨o, by rw [sl]; exact h.row.slice, hp⟩, ?_⟩
  intro v2 hv2
  rw [hv] at hv2
  simp only [Option.some.injEq] at hv2
  rw [← hv2]; exact hn

/-! ### Joining -/

theorem joinedModel_right (hS : Sane W) (hV : V ∨ Confined W) {m1 m2 : List (Part K)} {v a b : K} (h1 : Neat V v m1)
    (h2 : Neat V v m2) : Neat V v (joinedModel W.as W.sc W.val a b m1 m2 m1 m2) := by
  unfold joinedModel
  split
  · obtain ⟨m, hm, he⟩ := joinModels_eq hS.sorts a (fun m => (matchAt W.sc W.val m a b).2) m1 m2
    rw [he]
    rcases hV with hV | hV
    · exact Or.inl hV
    rcases h1.right.append h2.right with h | h
    · exact Or.inl h
    right
    have hp := matchAt_pos hV m a b
    exact ⟨ordered_of_pos hp hm.sorted, right_of_pos hp (fun p hp => h p (hm.mem p hp))⟩
  · split
    · exact h1
    · exact h2

theorem joinAdjacent_tot (hS : Sane W) (hC : Calm W) (hV : V ∨ Confined W) {yd : List K} (hx : Data J.x yd J.dy)
    {m1 m2 : Cluster K} {s1 s2 : ℕ × ℕ} (h1 : NRow V J Q yd m1 s1) (h2 : NRow V J Q yd m2 s2) (hlt : s1.1 < s2.1)
    (hadj : s2.1 = s1.2) :
    ∃ c, joinAdjacent W.as W.eqv W.sc W.val (excess W m1) m1 m2 = .ok c ∧ NRow V J Q yd c (s1.1, s2.2) := by
  have p1 := h1.row.proper
  have p2 := h2.row.proper
  have ht : ∃ c, joinAdjacent W.as W.eqv W.sc W.val (excess W m1) m1 m2 = .ok c ∧
      ∀ v, J.x[s1.1]? = some v → Neat V v c.model := by
    have o1 := h1.row.of_
    have o2 := h2.row.of_
    unfold joinAdjacent
    rw [if_neg (by rw [o1.ids.1, o2.ids.1]; simp), if_neg (by rw [o1.ids.2.1, o2.ids.2.1]; simp),
      if_neg (by rw [o1.ids.2.2, o2.ids.2.2]; simp), if_neg (by rw [o1.method, o2.method]; simp),
      if_neg (by rw [o1.bl, o2.bl, hC.eqv]; simp), h1.row.slice, h2.row.slice]
    simp only [Slice.indices, Option.getD_some, o1.r]
    rw [min_eq_left (by omega), min_eq_left (by omega), min_eq_left (by omega), min_eq_left (by omega)]
    simp only [hlt, if_true]
    rw [if_neg (by simp [hadj])]
    unfold joinTail
    simp only [o1.r, o2.r, o1.y, o2.y]
    rw [List.getElem?_eq_getElem (show s1.2 - 1 < J.x.length by omega), List.getElem?_eq_getElem (show s2.1 < J.x.length by omega),
      List.getElem?_eq_getElem (show s1.2 - 1 < yd.length by rw [hx.leny]; omega),
      List.getElem?_eq_getElem (show s2.1 < yd.length by rw [hx.leny]; omega)]
    simp only
    generalize hm : joinedModel W.as W.sc W.val _ _ m1.model m2.model m1.model m2.model = m
    obtain ⟨ly, le⟩ := h1.row.lens hx
    obtain ⟨d, hd⟩ := changeSlice_first (ex := excess W m1)
      (c := { m1 with r := J.x, y := yd, model := m, slice := none, lastFit := 0, neverFit := false, funcs := (m1.funcs ++ m2.funcs).dedup })
      (s := ⟨some s1.1, s2.2⟩) rfl (slice_ne (a := s1.1) (b := s2.2) (by omega) (by rw [excess_length ly le, o1.r]; omega))
    simp only [← o1.r, ← o1.y] at hd ⊢
    rw [hd]
    refine ⟨d, rfl, ?_⟩
    obtain ⟨b, e, -⟩ := changeSlice_ok hd
    intro v hv
    rw [e, ← hm]
    refine joinedModel_right hS hV (h1.neat v (by rw [← o1.r]; exact hv)) ?_
    have hl2 : s2.1 < J.x.length := by omega
    rw [o1.r] at hv
    exact (h2.neat _ (List.getElem?_eq_getElem hl2)).weaken (index_mono hx.inc hv (List.getElem?_eq_getElem hl2) (by omega))
  obtain ⟨c, hc, hn⟩ := ht
  refine ⟨c, hc, ?_, hn⟩
  obtain ⟨j, hj, hr⟩ := joinAdjacent_row hS h1.row h2.row hc
  unfold Cluster.joinSlices at hj
  simp only [hlt, if_true] at hj
  rw [if_neg (by simp [hadj])] at hj
  simp only [Except.ok.injEq] at hj
  rw [hj]; exact hr

theorem variant1_tot (hS : Sane W) (hC : Calm W) (hV : V ∨ Confined W) (hQ : Supplies W J Q)
    (hrem : ∀ k, Q k → k.2.2.1 = true) {rec : Deeper K} (hF : Finds rec Q) (hR : RecEnds V rec) {h : Hood K} {v a b : K}
    (hh : HoodOk V Q v h) :
    Ends V (variant1 W J rec h a b) (fun d => Right V v d.model ∧ d.method = J.method) := by
  unfold variant1
  refine Ends.bind (hood_cluster hh) ?_
  rintro c - ⟨oc, v', hv', sc, rc, hle⟩
  split
  · obtain ⟨d, e, rd⟩ := reduced_tot hS hC hV sc a b rc
    obtain ⟨od, sd⟩ := reduced_of hS hQ oc e
    refine Ends.step e ?_
    have st : Starts d v' := by
      obtain ⟨s, e1, e2⟩ := sc
      exact ⟨s, by rw [sd, e1], by rw [od.r, ← oc.r]; exact e2⟩
    refine (deepen_tot hS hC hV hQ hrem hF hR (must := true) od hh.data hv' st rd).mono ?_
    rintro f - ⟨rf, mf⟩
    exact ⟨rf.lower hle, by rw [mf, od.method]⟩
  · exact Or.inl ⟨c, rfl, rc.lower hle, oc.method⟩

theorem variant2_tot (hS : Sane W) (hC : Calm W) (hV : V ∨ Confined W) (hQ : Supplies W J Q)
    (hrem : ∀ k, Q k → k.2.2.1 = true) {rec : Deeper K} (hF : Finds rec Q) (hR : RecEnds V rec) {h : Hood K} {v : K}
    (hh : HoodOk V Q v h) :
    Ends V (variant2 W J rec h) (fun d => Right V v d.model ∧ d.method = J.method) := by
  unfold variant2
  refine Ends.bind (hood_cluster hh) ?_
  rintro c - ⟨oc, v', hv', sc, rc, hle⟩
  obtain ⟨d, e, rd, -⟩ := fitted_tot hS hC hV (o := { justify := true }) rfl sc
  obtain ⟨od, sd, -⟩ := fitted_of hS hQ (o := { justify := true }) rfl oc e
  refine Ends.step e ?_
  have st : Starts d v' := by
    obtain ⟨s, e1, e2⟩ := sc
    exact ⟨s, by rw [sd, e1], by rw [od.r, ← oc.r]; exact e2⟩
  refine (deepen_tot hS hC hV hQ hrem hF hR (must := decide (0 < h.near.length)) od hh.data hv' st (rd rc)).mono ?_
  rintro f - ⟨rf, mf⟩
  exact ⟨rf.lower hle, by rw [mf, od.method]⟩

theorem better_tot (hC : Calm W) {a1 a2 : Cluster K} {k : ℕ} (h1 : a1.method = k) (h2 : a2.method = k) :
    ∃ d, better W a1 a2 = .ok d ∧ (d = a1 ∨ d = a2) := by
  obtain ⟨meth, h⟩ := hC.rated k
  obtain ⟨b, hb⟩ := Rated.gt ((h a1 h1).1 a1.model a1.baseline) ((h a2 h2).1 a2.model a2.baseline)
  unfold better
  rw [hb]
  cases b with
  | true => exact ⟨a1, rfl, Or.inl rfl⟩
  | false => exact ⟨a2, rfl, Or.inr rfl⟩

theorem item_some {γ : Type} {l : List γ} {i : ℕ} {a : γ} (h : l[i]? = some a) : item l i = .ok a := by
  unfold item; rw [h]

theorem joined_tot [IsStrictOrderedRing K] (hS : Sane W) (hC : Calm W) (hV : V ∨ Confined W) (hQ : Supplies W J Q)
    (hrem : ∀ k, Q k → k.2.2.1 = true) {rec : Deeper K} (hF : Finds rec Q) (hR : RecEnds V rec) {yd : List K}
    (hx : Data J.x yd J.dy) {cl cr s1 s2 : ℕ × ℕ} {m1 m2 : Cluster K} (h1 : NRow V J Q yd m1 s1) (h2 : NRow V J Q yd m2 s2)
    (hlt : s1.1 < s2.1) (hadj : s2.1 = s1.2) (hc1 : cl.2 ≤ cr.1) (hc2 : cr.1 < s2.2) :
    Ends V (joined W J rec yd cl cr m1 m2) (fun d => NRow V J Q yd d (s1.1, s2.2)) := by
  have p1 := h1.row.proper
  have p2 := h2.row.proper
  have hl1 : s1.1 < J.x.length := by omega
  have hv : J.x[s1.1]? = some J.x[s1.1] := List.getElem?_eq_getElem hl1
  generalize J.x[s1.1] = v at hv
  have key : Ends V (joined W J rec yd cl cr m1 m2) (fun d => Neat V v d.model) := by
    obtain ⟨new, e1, hn⟩ := joinAdjacent_tot hS hC hV hx h1 h2 hlt hadj
    unfold joined
    refine Ends.step e1 ?_
    have la : cl.2 < J.x.length := by omega
    have lb : cr.1 < J.x.length := by omega
    refine Ends.step (item_some (List.getElem?_eq_getElem la)) ?_
    refine Ends.step (item_some (List.getElem?_eq_getElem lb)) ?_
    refine Ends.step (item_some (List.getElem?_eq_getElem (show cl.2 < yd.length by rw [hx.leny]; omega))) ?_
    refine Ends.step (item_some (List.getElem?_eq_getElem (show cr.1 < yd.length by rw [hx.leny]; omega))) ?_
    have ll : s2.2 - 1 < J.x.length := by omega
    have hw : J.x[((s1.1, s2.2) : ℕ × ℕ).2 - 1]? = some J.x[s2.2 - 1] := List.getElem?_eq_getElem ll
    have q1 := index_mono hx.inc (List.getElem?_eq_getElem la) (List.getElem?_eq_getElem lb) hc1
    have q2 := index_mono hx.inc (List.getElem?_eq_getElem lb) (List.getElem?_eq_getElem ll) (by omega)
    have hmid : (J.x[cl.2] + J.x[cr.1]) / 2 ≤ J.x[s2.2 - 1] := by
      rw [div_le_iff₀ (by norm_num)]
      linarith
    generalize (J.x[cl.2] + J.x[cr.1]) / 2 = b at hmid
    obtain ⟨h, e2, hh⟩ := hood_ok (W := W) hx hn hv hw hmid
    refine Ends.step e2 ?_
    refine Ends.bind (variant1_tot hS hC hV hQ hrem hF hR hh) ?_
    rintro a1 - ⟨r1, t1⟩
    refine Ends.bind (variant2_tot hS hC hV hQ hrem hF hR hh) ?_
    rintro a2 - ⟨r2, t2⟩
    have on := hn.row.of_
    obtain ⟨cp, ec⟩ := copyOf_tot (W := W) (c := { new with model := h.other }) (a := s1.1) (b := s2.2)
      (by show new.y.length = new.r.length; rw [on.y, on.r, hx.leny])
      (by show new.err.length = new.r.length; rw [on.err, on.r, hx.lene])
      hn.row.slice (by omega) (by show s1.1 < new.r.length; rw [on.r]; omega)
    refine Ends.step ec ?_
    obtain ⟨best, eb, hb⟩ := better_tot hC t1 t2
    refine Ends.step eb ?_
    have rb : Right V v best.model := by
      rcases hb with rfl | rfl
      · exact r1
      · exact r2
    obtain ⟨f3, e4, n3⟩ := withPeaks_tot (V := V) hS (c := new) hh.stay rb
    refine Ends.step e4 ?_
    rw [withPeaks_eq] at e4
    simp only [Except.ok.injEq] at e4
    have st3 : Starts f3 v := by
      refine starts_part (r := J.x) (a := s1.1) (b := s2.2) ?_ ?_ (by omega) hv
      · rw [← e4]; exact on.r
      · rw [← e4]; exact hn.row.slice
    obtain ⟨f4, e5, -, n4⟩ := fitted_tot hS hC hV (o := { justify := true }) rfl st3
    exact Or.inl ⟨f4, e5, n4 n3⟩
  refine key.mono ?_
  intro d hd hn
  obtain ⟨j, hj, hr⟩ := joined_row hS hQ hF hx h1.row h2.row hd
  unfold Cluster.joinSlices at hj
  simp only [hlt, if_true] at hj
  rw [if_neg (by simp [hadj])] at hj
  simp only [Except.ok.injEq] at hj
  refine ⟨by rw [hj]; exact hr, ?_⟩
  intro v2 hv2
  have hv2' : J.x[s1.1]? = some v2 := hv2
  rw [hv] at hv2'
  simp only [Option.some.injEq] at hv2'
  rw [← hv2']; exact hn

/-- The clusters of the main loop and their extents. -/
abbrev NSync (V : Prop) (J : Job K) (Q : Key K → Prop) (yd : List K) (ms : List (Cluster K)) (sl : List (ℕ × ℕ)) : Prop :=
  List.Forall₂ (NRow V J Q yd) ms sl

theorem f2_get' {α β : Type} {R : α → β → Prop} {l : List α} {m : List β} (h : List.Forall₂ R l m) {i : ℕ} {b : β}
    (hb : m[i]? = some b) : ∃ a, l[i]? = some a ∧ R a b := by
  have hl := h.length_eq
  have hi := getElem?_lt hb
  obtain ⟨b', e, hr⟩ := f2_get h (List.getElem?_eq_getElem (show i < l.length by omega))
  rw [hb] at e
  simp only [Option.some.injEq] at e
  rw [e]; exact ⟨_, List.getElem?_eq_getElem (by omega), hr⟩

theorem row_some {l : List (ℕ × ℕ)} {i : ℕ} {s : ℕ × ℕ} (h : l[i]? = some s) : Cluster.row l i = s := by
  simp [Cluster.row, h]

theorem joinLoop_tot [IsStrictOrderedRing K] (hS : Sane W) (hC : Calm W) (hV : V ∨ Confined W) (hQ : Supplies W J Q)
    (hrem : ∀ k, Q k → k.2.2.1 = true) {rec : Deeper K} (hF : Finds rec Q) (hR : RecEnds V rec) {yd : List K}
    (hx : Data J.x yd J.dy) {rows : List (ℕ × ℕ)} (hw : Cluster.WF J.x.length rows) :
    ∀ (l : List ℕ) (ms : List (Cluster K)) (sl sl' : List (ℕ × ℕ)), l.Pairwise (· > ·) →
    (∀ i ∈ l, 0 < i ∧ i < rows.length) →
    (∀ i ∈ l, ∀ j ≤ i, ∃ s, sl[j]? = some s ∧ s.1 = (Cluster.row rows j).1) →
    NSync V J Q yd ms sl → Cluster.joinLoop l sl = .ok sl' →
    Ends V (joinLoop W J rec yd rows l ms) (fun ms' => NSync V J Q yd ms' sl') := by
  intro l
  induction l with
  | nil =>
    intro ms sl sl' _ _ _ hs hj
    unfold Cluster.joinLoop at hj
    simp only [Except.ok.injEq] at hj
    subst hj
    exact Or.inl ⟨ms, rfl, hs⟩
  | cons i l ih =>
    intro ms sl sl' hd hb hinv hs hj
    obtain ⟨i0, il⟩ := hb i List.mem_cons_self
    obtain ⟨s1, g1, k1⟩ := hinv i List.mem_cons_self (i - 1) (by omega)
    obtain ⟨s2, g2, k2⟩ := hinv i List.mem_cons_self i le_rfl
    obtain ⟨m1, f1, n1⟩ := f2_get' hs g1
    obtain ⟨m2, f2, n2⟩ := f2_get' hs g2
    unfold Cluster.joinLoop at hj
    rw [row_some g1, row_some g2] at hj
    have hord := hw.row_lt (i := i - 1) (j := i) (by omega) il
    have hval := hw.valid (Cluster.row rows (i - 1)) (by
      rw [Cluster.mem_iff_row]; exact ⟨i - 1, by omega, rfl⟩)
    have hlt : s1.1 < s2.1 := by omega
    unfold Cluster.joinSlices at hj
    simp only [hlt, if_true] at hj
    by_cases hadj : s2.1 ≠ s1.2
    · rw [if_pos hadj] at hj; simp at hj
    rw [if_neg hadj] at hj
    simp only at hj
    have p2 := n2.row.proper
    unfold joinLoop
    refine Ends.step (item_some f1) ?_
    refine Ends.step (item_some f2) ?_
    refine Ends.bind (joined_tot hS hC hV hQ hrem hF hR hx (cl := Cluster.row rows (i - 1)) (cr := Cluster.row rows i)
      n1 n2 hlt (not_not.1 hadj) (by omega) (by omega)) ?_
    intro new _ hnew
    rw [List.pairwise_cons] at hd
    refine ih _ _ sl' hd.2 (fun k hk => hb k (List.mem_cons_of_mem _ hk)) ?_ (f2_erase (f2_set hs (i - 1) hnew) i) hj
    intro k hk j hjk
    have hki := hd.1 k hk
    obtain ⟨s, g, e⟩ := hinv i List.mem_cons_self j (by omega)
    rw [List.getElem?_eraseIdx_of_lt (by omega), List.getElem?_set]
    by_cases hji : i - 1 = j
    · subst hji
      rw [if_pos rfl, if_pos (getElem?_lt g1)]
      exact ⟨_, rfl, k1⟩
    · rw [if_neg hji]
      exact ⟨s, g, e⟩

end Verif.Parts.Extract
