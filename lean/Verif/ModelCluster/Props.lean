import Verif.ModelCluster.Model
import Verif.PeakList.Props
import Verif.Evaluator.Props

/-!
# Properties C26, C27, C28, C58, C59 of `ModelCluster`
-/

set_option linter.unusedSectionVars false

namespace Verif.Parts.ModelCluster

open Verif.Py Verif.PeakList

variable {K : Type}

/-! ### C28: never_fit and contingent_fit -/

theorem mem_getSlice {α : Type} (l : List α) (a b i : ℕ) (v : α) (h : l[i]? = some v) (h1 : a ≤ i)
    (h2 : i < b) : v ∈ getSlice l (some (a, b)) := by
  have hi : i < l.length := by
    by_contra hc
    rw [List.getElem?_eq_none (by omega)] at h
    simp at h
  have := getElem?_getSlice l (some (a, b)) i (by simp only [bounds]; omega) (by simp only [bounds]; omega)
  rw [h] at this
  exact List.mem_of_getElem? this

theorem getSlice_mem {α : Type} (l : List α) (a b : ℕ) (v : α) (h : v ∈ getSlice l (some (a, b))) :
    ∃ i, a ≤ i ∧ i < b ∧ l[i]? = some v := by
  obtain ⟨k, hk⟩ := List.mem_iff_getElem?.1 h
  have hlen := length_getSlice l (some (a, b))
  have hk' : k < (getSlice l (some (a, b))).length := by
    by_contra hc
    rw [List.getElem?_eq_none (by omega)] at hk
    simp at hk
  have hb := bounds_le l.length (some (a, b))
  have := getElem?_getSlice l (some (a, b)) (k + (bounds l.length (some (a, b))).1) (by omega) (by omega)
  rw [Nat.add_sub_cancel, hk] at this
  refine ⟨k + (bounds l.length (some (a, b))).1, ?_, ?_, this.symm⟩
  · simp only [bounds] at *; omega
  · simp only [bounds] at *; omega

/-- No point of the cluster rises above its uncertainty (`ex` is data minus baseline minus
uncertainty). -/
def AllBelow [Zero K] [LT K] (ex : List K) (a b : ℕ) : Prop :=
  ∀ i v, a ≤ i → i < b → ex[i]? = some v → v < 0

theorem maxNeg_ok [Zero K] [LinearOrder K] (ex : List K) (a b : ℕ) {c : Bool}
    (h : maxNeg (getSlice ex (some (a, b))) = .ok c) : c = true ↔ AllBelow ex a b := by
  unfold maxNeg at h
  split at h
  · simp at h
  · simp only [Except.ok.injEq] at h
    subst h
    rw [List.all_eq_true]
    constructor
    · intro h i v h1 h2 h3
      simpa using h v (mem_getSlice ex a b i v h3 h1 h2)
    · intro h v hv
      obtain ⟨i, h1, h2, h3⟩ := getSlice_mem ex a b v hv
      simpa using h i v h1 h2 h3

/-- A history of `change_slice` calls with explicit bounds, starting from the construction of the
cluster, that all succeeded.  `mono` tells whether the slice was proper (start ≤ stop) at first and only
ever grew. -/
inductive SliceHistory [Zero K] [LinearOrder K] (ex : List K) : Bool → Cluster K → Prop
  | start {c c' : Cluster K} {a b : ℕ} : c.slice = none →
      changeSlice ex c ⟨some a, b⟩ = (.ok (), c') → SliceHistory ex (decide (a ≤ b)) c'
  | step {mono : Bool} {c c' : Cluster K} {a b a' b' : ℕ} : SliceHistory ex mono c →
      c.slice = some ⟨some a, b⟩ → changeSlice ex c ⟨some a', b'⟩ = (.ok (), c') →
      SliceHistory ex (mono && decide (a' ≤ a) && decide (b ≤ b')) c'

/-- **C28.** A cluster is never wrongly skipped: after any history of slice changes (growing, shrinking,
moving), if the cluster is marked "never fit" then no data point in it rises above its uncertainty
over the baseline; and if the slice only ever grew the mark is exact. -/
theorem c28_never_fit [Zero K] [LinearOrder K] {ex : List K} {mono : Bool} {c : Cluster K}
    (h : SliceHistory ex mono c) :
    ∃ a b, c.slice = some ⟨some a, b⟩ ∧ (c.neverFit = true → AllBelow ex a b) ∧
      (mono = true → a ≤ b ∧ (AllBelow ex a b → c.neverFit = true)) := by
  induction h with
  | @start c c' a b h0 h1 =>
    refine ⟨a, b, ?_⟩
    unfold changeSlice updateNever at h1
    rw [h0] at h1
    simp only [Slice.get, Option.getD_some] at h1
    cases hm : maxNeg (getSlice ex (some (a, b))) with
    | error e => rw [hm] at h1; simp at h1
    | ok v =>
      rw [hm] at h1
      simp only [Prod.mk.injEq, true_and] at h1
      subst h1
      have := maxNeg_ok ex a b hm
      exact ⟨rfl, this.1, fun hab => ⟨by simpa using hab, this.2⟩⟩
  | @step mono c c' a b a' b' hist hs h1 ih =>
    obtain ⟨a0, b0, e1, e2, e3⟩ := ih
    rw [hs] at e1
    simp only [Option.some.injEq, Slice.mk.injEq] at e1
    obtain ⟨rfl, rfl⟩ := e1
    refine ⟨a', b', ?_⟩
    unfold changeSlice updateNever at h1
    rw [hs] at h1
    simp only at h1
    cases hn : c.neverFit with
    | false =>
      rw [hn] at h1
      simp only [Bool.false_eq_true, if_false, false_and, Prod.mk.injEq, true_and] at h1
      subst h1
      refine ⟨rfl, by simp, ?_⟩
      intro hm
      simp only [Bool.and_eq_true, decide_eq_true_eq] at hm
      have hab := (e3 hm.1.1).1
      refine ⟨by omega, fun hall => ?_⟩
      have : c.neverFit = true := (e3 hm.1.1).2 (fun i v h1 h2 h3 => hall i v (by omega) (by omega) h3)
      rw [hn] at this; simp at this
    | true =>
      rw [hn] at h1
      have hall := e2 hn
      simp only [if_true] at h1
      -- the left part
      have hleft : ∃ l, (if a' < a then maxNeg (getSlice ex (some (a', a))) else .ok true) = Except.ok l ∧
          (l = true ↔ AllBelow ex a' a) := by
        by_cases hlt : a' < a
        · rw [if_pos hlt] at h1 ⊢
          cases hm : maxNeg (getSlice ex (some (a', a))) with
          | error e => rw [hm] at h1; simp at h1
          | ok l => exact ⟨l, rfl, maxNeg_ok ex a' a hm⟩
        · rw [if_neg hlt]
          exact ⟨true, rfl, by
            simp only [true_iff]
            intro i v h1 h2; omega⟩
      obtain ⟨l, hl1, hl2⟩ := hleft
      rw [hl1] at h1
      simp only at h1
      cases l with
      | false =>
        simp only [Bool.false_eq_true, false_and, if_false, Prod.mk.injEq, true_and] at h1
        subst h1
        refine ⟨rfl, by simp, ?_⟩
        intro hm
        simp only [Bool.and_eq_true, decide_eq_true_eq] at hm
        have hab := (e3 hm.1.1).1
        refine ⟨by omega, fun hall' => ?_⟩
        exfalso
        have hc : AllBelow ex a' a := by
          intro i v h1 h2 h3
          exact hall' i v h1 (by omega) h3
        have := hl2.2 hc
        simp at this
      | true =>
        have hL := hl2.1 rfl
        simp only [true_and] at h1
        by_cases hb : b < b'
        · rw [if_pos hb] at h1
          cases hm : maxNeg (getSlice ex (some (b, b'))) with
          | error e => rw [hm] at h1; simp at h1
          | ok v =>
            rw [hm] at h1
            simp only [Prod.mk.injEq, true_and] at h1
            subst h1
            have hr := maxNeg_ok ex b b' hm
            refine ⟨rfl, ?_, ?_⟩
            · intro hv i w h1 h2 h3
              by_cases hia : i < a
              · exact hL i w h1 hia h3
              · by_cases hib : i < b
                · exact hall i w (by omega) hib h3
                · exact hr.1 hv i w (by omega) h2 h3
            · intro hm'
              simp only [Bool.and_eq_true, decide_eq_true_eq] at hm'
              have hab := (e3 hm'.1.1).1
              refine ⟨by omega, fun hall' => ?_⟩
              refine hr.2 (fun i w h1 h2 h3 => ?_)
              exact hall' i w (by omega) h2 h3
        · rw [if_neg hb] at h1
          simp only [Prod.mk.injEq, true_and] at h1
          subst h1
          refine ⟨rfl, ?_, fun hm' => ⟨?_, fun _ => rfl⟩⟩
          swap
          · simp only [Bool.and_eq_true, decide_eq_true_eq] at hm'
            have hab := (e3 hm'.1.1).1
            omega
          intro _ i w h1 h2 h3
          by_cases hia : i < a
          · exact hL i w h1 hia h3
          · exact hall i w (by omega) (by omega) h3

/-- An empty cluster over four points, not yet given a slice. -/
def exCluster : Cluster ℚ :=
  ⟨[], none, [0, 1, 2, 3], [1, 1, 5, 1], [2, 2, 2, 2], 0, 0, 0, 0, [0], none, 0, false⟩

/-- Instance of the history: points 0..1 (all below), then 0..2 (one above), then 0..1 again. -/
example : ∃ c1 c2 c3, changeSlice [-1, -1, 3, -1] exCluster ⟨some 0, 2⟩ = (.ok (), c1) ∧
    changeSlice [-1, -1, 3, -1] c1 ⟨some 0, 3⟩ = (.ok (), c2) ∧
    changeSlice [-1, -1, 3, -1] c2 ⟨some 0, 2⟩ = (.ok (), c3) ∧
    c1.neverFit = true ∧ c2.neverFit = false ∧ c3.neverFit = false ∧
    SliceHistory [-1, -1, 3, -1] true c2 := by
  refine ⟨_, _, _, rfl, rfl, rfl, by decide +kernel, by decide +kernel, by decide +kernel, ?_⟩
  exact SliceHistory.step (mono := true) (a := 0) (b := 2) (a' := 0) (b' := 3)
    (SliceHistory.start (a := 0) (b := 2) (c := exCluster) rfl rfl) rfl rfl

/-- **C28, finding.** A cluster created without an explicit slice (`cluster_slice=None`) on data that are
nowhere above the uncertainty cannot change its slice any more: TypeError. -/
theorem c28_default_slice_raises [Zero K] [LinearOrder K] (ex : List K) (c c' : Cluster K) (n : ℕ)
    (h0 : c.slice = none) (h : changeSlice ex c ⟨none, n⟩ = (.ok (), c')) (hne : ex ≠ []) (hn : 0 < n)
    (hall : ∀ v ∈ ex, v < 0) (new : Slice) :
    (changeSlice ex c' new).1 = .error .type := by
  have hlen : 0 < ex.length := List.length_pos_iff.2 hne
  have hg : getSlice ex (some (0, n)) ≠ [] := by
    have := length_getSlice ex (some (0, n))
    simp only [bounds] at this
    intro hc
    rw [hc] at this
    simp at this
    omega
  unfold changeSlice updateNever at h
  rw [h0] at h
  simp only [Slice.get, Option.getD_none] at h
  have hm : maxNeg (getSlice ex (some (0, n))) = .ok true := by
    unfold maxNeg
    rw [if_neg hg]
    congr 1
    rw [List.all_eq_true]
    intro v hv
    obtain ⟨i, -, -, hi⟩ := getSlice_mem ex 0 n v hv
    simpa using hall v (List.mem_of_getElem? hi)
  rw [hm] at h
  simp only [Prod.mk.injEq, true_and] at h
  subst h
  unfold changeSlice updateNever
  cases new.start <;> simp

/-- **C28.** `contingent_fit(minpoints, growth)` attempts a fit exactly if the cluster has data above the
uncertainty and either was never fitted and has at least `minpoints` points, or was fitted and has grown
to at least `growth` times the size it had then; otherwise it returns None and changes nothing. -/
theorem c28_contingent_fit [Field K] [LinearOrder K] [IsStrictOrderedRing K] (E : Env K) (c : Cluster K)
    (minpoints : ℕ) (growth : K) :
    ((c.neverFit = false ∧ (c.lastFit = 0 ∧ minpoints ≤ c.size ∨
        c.lastFit ≠ 0 ∧ growth * c.lastFit ≤ c.size)) →
      contingentFit E c minpoints growth = fit E { justify := true } c) ∧
    (¬ (c.neverFit = false ∧ (c.lastFit = 0 ∧ minpoints ≤ c.size ∨
        c.lastFit ≠ 0 ∧ growth * c.lastFit ≤ c.size)) →
      contingentFit E c minpoints growth = (.ok none, c, c.model)) := by
  have hiff : ((0 < c.lastFit ∧ growth ≤ (c.size : K) / c.lastFit) ∨
      (c.lastFit = 0 ∧ minpoints ≤ c.size)) ↔ (c.lastFit = 0 ∧ minpoints ≤ c.size ∨
        c.lastFit ≠ 0 ∧ growth * c.lastFit ≤ c.size) := by
    by_cases h0 : c.lastFit = 0
    · simp [h0]
    · have hpos : (0 : K) < c.lastFit := by exact_mod_cast Nat.pos_of_ne_zero h0
      rw [le_div_iff₀ hpos]
      simp [h0, Nat.pos_of_ne_zero h0]
  unfold contingentFit
  constructor
  · rintro ⟨h1, h2⟩
    rw [h1, if_neg (by simp), if_pos (hiff.2 h2)]
  · intro h
    by_cases h1 : c.neverFit = true
    · rw [if_pos h1]
    · rw [if_neg h1, if_neg]
      intro h2
      exact h ⟨by simpa using h1, hiff.1 h2⟩

/-- **C28.** After a fit of a non-empty model, whatever its result, the cluster is not fitted again by
`contingent_fit` until it has grown by the factor asked for: here at once, for any factor above 1. -/
theorem c28_not_twice [Field K] [LinearOrder K] [IsStrictOrderedRing K] (E : Env K) (o : Opts)
    (c : Cluster K) (hne : c.model ≠ []) (hs : 0 < c.size) (minpoints : ℕ) (growth : K) (hg : 1 < growth) :
    contingentFit E (fit E o c).2.1 minpoints growth = (.ok none, (fit E o c).2.1, (fit E o c).2.1.model) := by
  by_cases hn : c.neverFit = true
  · have : fit E o c = (.ok none, c, c.model) := by unfold fit; rw [if_pos hn]
    rw [this]
    unfold contingentFit
    simp [hn]
  · have hsz : (fit E o c).2.1.lastFit = c.size ∧ (fit E o c).2.1.size = c.size := by
      unfold fit
      rw [if_neg hn, if_neg hne]
      unfold fitCore
      simp only
      split
      · exact ⟨rfl, rfl⟩
      · exact ⟨rfl, rfl⟩
      · split
        · exact ⟨rfl, rfl⟩
        · exact ⟨rfl, rfl⟩
        · split
          · exact ⟨rfl, rfl⟩
          · exact ⟨rfl, rfl⟩
    refine (c28_contingent_fit E _ minpoints growth).2 ?_
    rintro ⟨-, h | h⟩
    · omega
    · rw [hsz.1, hsz.2] at h
      have : (0 : K) < c.size := by exact_mod_cast hs
      nlinarith [h.2]

/-! ### Copies -/

/-- **C28.** A copy of a cluster that covers some data has the same peaks, baseline, data, evaluator, functions and
slice, counts as never fitted before (so `contingent_fit` decides afresh), and is marked as not worth fitting exactly if
all its data stay below the baseline by more than the uncertainty (`ex` is data minus baseline minus uncertainty). -/
theorem c28_copy [Zero K] [LinearOrder K] (ex : List K) (c : Cluster K) (s : Slice) (hs : c.slice = some s) :
    ((∃ (i : ℕ) (v : K), s.start.getD 0 ≤ i ∧ i < s.stop ∧ ex[i]? = some v) →
      ∃ b, copy ex c = (.ok (), { c with lastFit := 0, neverFit := b }) ∧
        (b = true ↔ ∀ (i : ℕ) (v : K), s.start.getD 0 ≤ i → i < s.stop → ex[i]? = some v → v < 0)) ∧
    ((∀ (i : ℕ) (v : K), s.start.getD 0 ≤ i → i < s.stop → ex[i]? ≠ some v) → (copy ex c).1 = .error .value) := by
  have e : copy ex c = changeSlice ex { c with slice := none, lastFit := 0, neverFit := false } s := by
    unfold copy; rw [hs]
  rw [e]
  unfold changeSlice updateNever maxNeg
  simp only
  constructor
  · rintro ⟨i, v, h1, h2, h3⟩
    have hm : v ∈ s.get ex := mem_getSlice ex _ _ i v h3 h1 h2
    have hne : ¬ (s.get ex = []) := fun h => by rw [h] at hm; cases hm
    rw [if_neg hne]
    refine ⟨(s.get ex).all (fun v => decide (v < 0)), ?_, ?_⟩
    · simp only [hs]
    · rw [List.all_eq_true]
      constructor
      · intro h j w g1 g2 g3
        simpa using h w (mem_getSlice ex _ _ j w g3 g1 g2)
      · intro h w hw
        obtain ⟨j, g1, g2, g3⟩ := getSlice_mem ex _ _ w hw
        simpa using h j w g1 g2 g3
  · intro h
    rw [if_pos]
    rw [List.eq_nil_iff_forall_not_mem]
    intro w hw
    obtain ⟨j, g1, g2, g3⟩ := getSlice_mem ex _ _ w hw
    exact h j w g1 g2 g3

/-- Instance: a cluster over two of three points, whose last fit was of size 5. -/
example : let c : Cluster ℤ := ⟨[], none, [1, 2, 3], [4, 5, 6], [1, 1, 1], 0, 1, 2, 0, [7], some ⟨some 1, 3⟩, 5, true⟩
    copy [-3, -1, 2] c = (.ok (), { c with lastFit := 0, neverFit := false }) ∧
    copy [3, -1, -2] c = (.ok (), { c with lastFit := 0, neverFit := true }) := ⟨rfl, rfl⟩

/-! ### C26: replacing and deleting peaks -/

/-- **C26.** `replacepeaks(new, slice(a, b))` raises ValueError, and changes nothing, exactly if a peak of
the slice is not removable.  Otherwise the model has exactly the peaks outside the slice and the new
ones, sorted by position. -/
theorem c26_replacepeaks [Zero K] [LinearOrder K] {as : List K → List ℕ} (has : SortsKeys as)
    (m new : List (Part K)) (a b : ℕ) (hab : a ≤ b) (hb : b ≤ m.length) :
    ((∃ i p, a ≤ i ∧ i < b ∧ m[i]? = some p ∧ p.removable = false) →
      replacepeaks as m new a b = (.error .value, m)) ∧
    ((∀ (i : ℕ) p, a ≤ i → i < b → m[i]? = some p → p.removable = true) →
      (replacepeaks as m new a b).1 = .ok () ∧
      (replacepeaks as m new a b).2.Perm (m.take a ++ m.drop b ++ new) ∧
      (replacepeaks as m new a b).2.Pairwise (fun p q => pos p ≤ pos q)) := by
  constructor
  · rintro ⟨i, p, h1, h2, h3, h4⟩
    unfold replacepeaks
    rw [if_pos]
    rw [List.any_eq_true]
    exact ⟨p, mem_getSlice m a b i p h3 h1 h2, by simp [h4]⟩
  · intro h
    unfold replacepeaks
    rw [if_neg]
    swap
    · rw [List.any_eq_true]
      rintro ⟨p, hp, hr⟩
      obtain ⟨i, h1, h2, h3⟩ := getSlice_mem m a b p hp
      rw [h i p h1 h2 h3] at hr
      simp at hr
    have e1 : (bounds m.length (some (a, b))).1 = a := by simp only [bounds]; omega
    have e2 : (bounds m.length (some (a, b))).2 = b := by simp only [bounds]; omega
    simp only [e1, e2]
    obtain ⟨p1, p2⟩ := c37_sort has false pos (m.take a ++ new ++ m.drop b)
    refine ⟨trivial, p1.trans ?_, p2⟩
    rw [List.append_assoc, List.append_assoc]
    exact List.Perm.append_left _ List.perm_append_comm

/-- **C26.** `deletepeak(i)` for an existing index removes exactly that peak if it is removable. -/
theorem c26_deletepeak [Zero K] [LinearOrder K] {as : List K → List ℕ} (has : SortsKeys as)
    (m : List (Part K)) (i : ℕ) (p : Part K) (hp : m[i]? = some p) :
    (p.removable = false → deletepeak as m i = (.error .value, m)) ∧
    (p.removable = true → (deletepeak as m i).1 = .ok () ∧
      (deletepeak as m i).2.Perm (m.eraseIdx i) ∧
      (deletepeak as m i).2.Pairwise (fun p q => pos p ≤ pos q)) := by
  have hi : i < m.length := by
    by_contra hc
    rw [List.getElem?_eq_none (by omega)] at hp
    simp at hp
  have e : deletepeak as m i = replacepeaks as m [] i (i + 1) := by
    unfold deletepeak
    simp only
    rw [if_neg (by omega), if_neg (by omega)]
    congr 1
  obtain ⟨h1, h2⟩ := c26_replacepeaks has m [] i (i + 1) (by omega) (by omega)
  rw [e]
  constructor
  · intro hr
    exact h1 ⟨i, p, le_refl _, by omega, hp, hr⟩
  · intro hr
    have := h2 (fun k q hk1 hk2 hq => by
      have : k = i := by omega
      subst this
      rw [hp] at hq
      simp only [Option.some.injEq] at hq
      rw [← hq]; exact hr)
    rwa [List.append_nil, ← List.eraseIdx_eq_take_drop_succ] at this

/-- **C26, finding.** `deletepeak(-1)`, Python's way to say "the last peak", deletes nothing and reports
nothing (while -2 deletes the last but one). -/
theorem c26_delete_last_does_nothing [Zero K] [LinearOrder K] {as : List K → List ℕ} (has : SortsKeys as)
    (m : List (Part K)) :
    (deletepeak as m (-1)).1 = .ok () ∧ (deletepeak as m (-1)).2.Perm m := by
  unfold deletepeak
  simp only
  rw [if_pos (by omega), if_neg (by omega)]
  unfold replacepeaks
  have hb : (bounds m.length (some ((-1 + (m.length : ℤ)).toNat, (-1 + 1 : ℤ).toNat))).2 =
      (bounds m.length (some ((-1 + (m.length : ℤ)).toNat, (-1 + 1 : ℤ).toNat))).1 := by
    simp only [bounds]
    have : (-1 + 1 : ℤ).toNat = 0 := by decide
    rw [this]
    omega
  have hs : getSlice m (some ((-1 + (m.length : ℤ)).toNat, (-1 + 1 : ℤ).toNat)) = [] := by
    unfold getSlice
    simp only [hb]
    simp
  rw [hs]
  simp only [List.any_nil, Bool.false_eq_true, if_false, hb, List.append_nil, List.take_append_drop]
  exact ⟨trivial, (c37_sort has false pos m).1⟩

/-! ### C58: cleanfit -/

theorem eraseIdx_loop {α : Type} (l : List α) : ∀ (n : ℕ) (f : ℕ → Bool), n ≤ l.length →
    ((List.range n).filter f).reverse.foldl (fun m i => m.eraseIdx i) l =
      ((l.take n).zipIdx.filter (fun x => !f x.2)).map Prod.fst ++ l.drop n := by
  intro n
  induction n generalizing l with
  | zero => intro f _; simp
  | succ n ih =>
    intro f hn
    rw [List.range_succ, List.filter_append, List.reverse_append, List.foldl_append]
    have ht : l.take (n + 1) = l.take n ++ [l[n]] := by
      rw [List.take_succ_eq_append_getElem (by omega)]
    have hd : l.drop n = l[n] :: l.drop (n + 1) := by
      rw [← List.drop_eq_getElem_cons]
    have hlen : (l.take n).length = n := by rw [List.length_take]; omega
    by_cases hf : f n = true
    · have h1 : List.filter f [n] = [n] := by simp [hf]
      rw [h1]
      simp only [List.reverse_cons, List.reverse_nil, List.nil_append, List.foldl_cons, List.foldl_nil]
      rw [ih (l.eraseIdx n) f (by rw [List.length_eraseIdx]; split <;> omega)]
      have h2 : (l.eraseIdx n).take n = l.take n := by
        rw [List.take_eraseIdx_eq_take_of_le] ; omega
      have h3 : (l.eraseIdx n).drop n = l.drop (n + 1) := by
        rw [List.eraseIdx_eq_take_drop_succ, List.drop_append_of_le_length (by omega)]
        rw [List.drop_eq_nil_of_le (by omega)]
        rfl
      rw [h2, h3, ht, List.zipIdx_append, List.filter_append]
      simp [hlen, hf]
    · have h1 : List.filter f [n] = [] := by simp [hf]
      rw [h1]
      simp only [List.reverse_nil, List.foldl_nil]
      rw [ih l f (by omega), ht, List.zipIdx_append, List.filter_append, hd]
      simp [hlen, hf]

theorem searchPos_iff [Zero K] [LinearOrder K] {ps : List (Part K)}
    (hs : ps.Pairwise (fun p q => pos p ≤ pos q)) (v : K) (i : ℕ) (p : Part K) (hp : ps[i]? = some p) :
    i < searchPos ps v ↔ pos p < v := by
  induction ps generalizing i with
  | nil => simp at hp
  | cons c ps ih =>
    obtain ⟨h1, h2⟩ := List.pairwise_cons.1 hs
    unfold searchPos
    by_cases hc : pos c < v
    · rw [List.takeWhile_cons_of_pos (by simpa using hc), List.length_cons]
      match i with
      | 0 =>
        simp only [List.getElem?_cons_zero, Option.some.injEq] at hp
        subst hp
        simp [hc]
      | i + 1 =>
        rw [Nat.add_lt_add_iff_right]
        exact ih h2 i (by simpa using hp)
    · rw [List.takeWhile_cons_of_neg (by simpa using hc)]
      simp only [List.length_nil, Nat.not_lt_zero, false_iff, not_lt]
      match i with
      | 0 =>
        simp only [List.getElem?_cons_zero, Option.some.injEq] at hp
        subst hp
        exact not_lt.1 hc
      | i + 1 =>
        exact le_trans (not_lt.1 hc) (h1 p (List.mem_of_getElem? (by simpa using hp)))

/-- The peaks that `cleanfit` is to remove: those with a parameter that is not a number, and the removable
ones that lie outside the cluster (left of its first point, or not left of its last point) and stay below
the uncertainty at every point of it. -/
def Poor [Zero K] [LinearOrder K] (isnan : K → Bool) (r0 r1 : K) (below : Part K → Bool) (p : Part K) : Prop :=
  (∃ v ∈ p.pars, isnan v = true) ∨
    (p.removable = true ∧ (pos p < r0 ∨ r1 ≤ pos p) ∧ below p = true)

theorem inRemove_iff [Zero K] [LinearOrder K] (isnan : K → Bool) (r0 r1 : K) (below : Part K → Bool)
    {ps : List (Part K)} (hs : ps.Pairwise (fun p q => pos p ≤ pos q)) (i : ℕ) (p : Part K)
    (hp : ps[i]? = some p) :
    inRemove isnan r0 r1 below ps i = true ↔ Poor isnan r0 r1 below p := by
  have hi : i < ps.length := by
    by_contra hc
    rw [List.getElem?_eq_none (by omega)] at hp
    simp at hp
  have h0 := searchPos_iff hs r0 i p hp
  have h1 := searchPos_iff hs r1 i p hp
  have hle : searchPos ps r1 ≤ ps.length := by
    unfold searchPos
    exact (List.takeWhile_prefix _).length_le
  unfold inRemove Poor
  simp only [Bool.or_eq_true, List.contains_iff_mem, List.mem_filter, List.mem_append, List.mem_range,
    List.mem_range'_1, hp, Option.map_some, Option.getD_some, Bool.and_eq_true, List.any_eq_true]
  have h1' : (searchPos ps r1 ≤ i ∧ i < searchPos ps r1 + (ps.length - searchPos ps r1)) ↔ r1 ≤ pos p := by
    rw [← not_lt, ← not_lt (a := pos p), h1]
    constructor
    · exact fun h => h.1
    · exact fun h => ⟨h, by rw [← h1] at h; omega⟩
  rw [h1', h0]
  constructor
  · rintro (⟨a, b, c⟩ | ⟨-, v⟩)
    · exact Or.inr ⟨b, a, c⟩
    · exact Or.inl v
  · rintro (v | ⟨b, a, c⟩)
    · exact Or.inr ⟨hi, v⟩
    · exact Or.inl ⟨a, b, c⟩

open Classical in
/-- **C58.** `cleanfit()` on a sorted model removes exactly the poor peaks, keeps all others in order, and
returns how many it removed.  In particular a non-removable peak with proper numbers always stays. -/
theorem c58_cleanfit [Zero K] [LinearOrder K] (isnan : K → Bool) (r0 r1 : K)
    (below : Part K → Bool) (ps : List (Part K)) (hs : ps.Pairwise (fun p q => pos p ≤ pos q)) :
    (cleanfit isnan r0 r1 below ps).2 = ps.filter (fun p => ¬ Poor isnan r0 r1 below p) ∧
    (cleanfit isnan r0 r1 below ps).1 + (cleanfit isnan r0 r1 below ps).2.length = ps.length := by
  generalize hf : inRemove isnan r0 r1 below ps = f
  have hfi : ∀ (i : ℕ) p, ps[i]? = some p → (f i = true ↔ Poor isnan r0 r1 below p) := by
    intro i p hp
    rw [← hf]
    exact inRemove_iff isnan r0 r1 below hs i p hp
  have key : ∀ (l : List (Part K)) (k : ℕ), (∀ (i : ℕ) p, l[i]? = some p →
        (f (k + i) = true ↔ Poor isnan r0 r1 below p)) →
      ((l.zipIdx k).filter (fun x => !f x.2)).map Prod.fst = l.filter (fun p => ¬ Poor isnan r0 r1 below p) ∧
      ((List.range' k l.length).filter f).length +
        (l.filter (fun p => ¬ Poor isnan r0 r1 below p)).length = l.length := by
    intro l
    induction l with
    | nil => intro k _; simp
    | cons c l ih =>
      intro k h
      obtain ⟨a1, a2⟩ := ih (k + 1) (fun i p hp => by
        have := h (i + 1) p (by simpa using hp)
        rwa [show k + (i + 1) = k + 1 + i by omega] at this)
      have hc := h 0 c rfl
      rw [Nat.add_zero] at hc
      rw [List.zipIdx_cons, List.length_cons, List.range'_succ]
      by_cases hp : Poor isnan r0 r1 below c
      · have hfk : f k = true := hc.2 hp
        rw [List.filter_cons_of_neg (by simp [hfk]), List.filter_cons_of_neg (by simp [hp]),
          List.filter_cons_of_pos hfk]
        exact ⟨a1, by rw [List.length_cons]; omega⟩
      · have hfk : ¬ f k = true := fun h' => hp (hc.1 h')
        rw [List.filter_cons_of_pos (by simp [hfk]), List.filter_cons_of_pos (by simp [hp]),
          List.filter_cons_of_neg hfk]
        refine ⟨by rw [List.map_cons, a1], by rw [List.length_cons]; omega⟩
  obtain ⟨k1, k2⟩ := key ps 0 (fun i p hp => by rw [Nat.zero_add]; exact hfi i p hp)
  have hcl : cleanfit isnan r0 r1 below ps = (((List.range ps.length).filter f).length,
      ((List.range ps.length).filter f).reverse.foldl (fun m i => m.eraseIdx i) ps) := by
    unfold cleanfit; rw [hf]
  rw [hcl]
  have hloop := eraseIdx_loop ps ps.length f (le_refl _)
  rw [List.take_length, List.drop_length, List.append_nil, k1] at hloop
  simp only
  rw [hloop]
  refine ⟨rfl, ?_⟩
  rw [← List.range_eq_range'] at k2
  exact k2

end Verif.Parts.ModelCluster
