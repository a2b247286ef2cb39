import Verif.Extract.EstimateModel
import Verif.Extract.Example
import Verif.Cluster.ByCoord

/-!
# C67: `estimate_peak`
-/

set_option linter.unusedSectionVars false

namespace Verif.Parts.Extract

open Verif.Py Verif.PeakList Verif.Parts.ModelCluster Verif.Extraction

variable {K : Type} [Field K] [LinearOrder K] [IsStrictOrderedRing K] {W : World K} {D : Defaults K}

theorem clusterAll_eq {s s' : Cluster.State K} {k : ℕ} (h : Cluster.MakeClusters s k s') :
    ∀ n, k ≤ n → clusterAll n s = .ok s' := by
  induction h with
  | stop he =>
    intro n _
    unfold clusterAll
    rw [he]
  | step he _ ih =>
    intro n hn
    unfold clusterAll
    rw [he]
    match n with
    | 0 => omega
    | n + 1 => exact ih n (by omega)

theorem signedDist_zero {x : List K} (hx : Cluster.Increasing x) {c : ℕ × ℕ} {i : ℕ} (hi : i < x.length)
    (hc : c.1 ≤ c.2 ∧ c.2 < x.length) (h : Cluster.signedDist x c i = 0) : c.1 ≤ i ∧ i ≤ c.2 := by
  have hget : ∀ a b : ℕ, a < b → (hb : b < x.length) → x.getD a 0 < x.getD b 0 := by
    intro a b hab hb
    rw [List.getD_eq_getElem?_getD, List.getD_eq_getElem?_getD, List.getElem?_eq_getElem (by omega),
      List.getElem?_eq_getElem hb]
    exact List.pairwise_iff_getElem.1 hx a b (by omega) hb hab
  unfold Cluster.signedDist at h
  by_cases h1 : i < c.1
  · rw [if_pos h1] at h
    have := hget i c.1 h1 (by omega)
    linarith
  rw [if_neg h1] at h
  by_cases h2 : c.2 < i
  · rw [if_pos h2] at h
    have := hget c.2 i h2 hi
    linarith
  omega

/-- **C67.** The data that decide about the peak near `v`: for `v` between the first and the last point, exactly one
whole cluster of the complete clustering of the unexplained data, the one that contains the first point not left of
`v`; for any other `v`, ValueError. -/
theorem c67_near_data (has : SortsKeys W.as) {x1 y1 dy : List K} (hd : Data x1 y1 dy) {x0 xe cres : K}
    (h0 : x1.head? = some x0) (he : x1.getLast? = some xe) (hc : 0 ≤ cres) (v : K) :
    (v < x0 ∨ xe < v → nearData W cres x1 y1 dy v = .error .value) ∧
    (x0 ≤ v → v ≤ xe → ∃ (i : ℕ) (start full : Cluster.State K) (k c : ℕ),
      (i < x1.length ∧ v ≤ x1.getD i 0 ∧ ∀ j < i, x1.getD j 0 < v) ∧
      Cluster.mk x1 y1 cres (W.as y1) = .ok start ∧ Cluster.MakeClusters start k full ∧
      c < full.clusters.length ∧ (full.clusters.getD c (0, 0)).1 ≤ i ∧ i ≤ (full.clusters.getD c (0, 0)).2 ∧
      nearData W cres x1 y1 dy v = .ok
        (getSlice x1 (some ((full.clusters.getD c (0, 0)).1, (full.clusters.getD c (0, 0)).2 + 1)),
         getSlice y1 (some ((full.clusters.getD c (0, 0)).1, (full.clusters.getD c (0, 0)).2 + 1)),
         getSlice dy (some ((full.clusters.getD c (0, 0)).1, (full.clusters.getD c (0, 0)).2 + 1)))) := by
  constructor
  · intro h
    unfold nearData
    rw [h0, he]
    simp only [if_pos h]
  · intro hv0 hve
    have hne : x1 ≠ [] := by rintro rfl; simp at h0
    have hpos : 0 < x1.length := List.length_pos_iff.2 hne
    have ho := argsort_of_sortsKeys has y1
    obtain ⟨start, hmk⟩ : ∃ s, Cluster.mk x1 y1 cres (W.as y1) = .ok s := by
      unfold Cluster.mk
      rw [if_neg (by simp [hd.leny]), if_neg (not_lt.2 hc), if_neg (by omega)]
      exact ⟨_, rfl⟩
    obtain ⟨k, full, hmake, hk, hreach, -, -, huniq⟩ :=
      Cluster.c03_makeclusters_total hd.inc ho (.mk hne hmk)
    have hx0 : x1.getD 0 0 = x0 := by
      rw [List.getD_eq_getElem?_getD, ← List.head?_eq_getElem?, h0]; rfl
    have hxe : x1.getD (x1.length - 1) 0 = xe := by
      rw [List.getD_eq_getElem?_getD, ← List.getLast?_eq_getElem?, he]; rfl
    have hnd : Cluster.Nondecreasing x1 := hd.inc.imp le_of_lt
    obtain ⟨-, hinv⟩ := Cluster.inv_reachable hnd ho hreach
    have hrow : ∀ c, Cluster.row full.clusters c = full.clusters.getD c (0, 0) := fun c => rfl
    suffices H : ∃ i c d, (i < x1.length ∧ v ≤ x1.getD i 0 ∧ ∀ j < i, x1.getD j 0 < v) ∧ c < full.clusters.length ∧
        Cluster.findNearest2 full v = .ok (some (c, d)) ∧
        (Cluster.row full.clusters c).1 ≤ i ∧ i ≤ (Cluster.row full.clusters c).2 by
      obtain ⟨i, c, d, hi, hcl, hf, hr⟩ := H
      refine ⟨i, start, full, k, c, hi, hmk, hmake, hcl, hr.1, hr.2, ?_⟩
      unfold nearData
      rw [h0, he]
      simp only
      rw [if_neg (by push Not; exact ⟨hv0, hve⟩), hmk]
      simp only
      rw [clusterAll_eq hmake x1.length (by omega)]
      simp only [nearest, hf]
      rfl
    rcases eq_or_lt_of_le hv0 with hv | hv
    · obtain ⟨hf, -⟩ := Cluster.c52_left_of_data hnd ho hreach (v := v) (by rw [hx0, hv])
      obtain ⟨c, ⟨hc1, hc2, hc3⟩, -⟩ := huniq 0 hpos
      have hlen : 0 < full.clusters.length := by omega
      refine ⟨0, 0, _, ⟨hpos, by rw [hx0, hv], by intro j hj; omega⟩, hlen, hf, ?_, Nat.zero_le _⟩
      by_cases hc0 : c = 0
      · subst hc0; exact hc2
      · exfalso
        have hord := List.pairwise_iff_getElem.1 hinv.wf.ordered 0 c hlen hc1 (by omega)
        have e1 : Cluster.row full.clusters c = full.clusters[c] := by
          rw [hrow, List.getD_eq_getElem?_getD, List.getElem?_eq_getElem hc1]; rfl
        rw [e1] at hc2
        omega
    · obtain ⟨i, hi, hvi, hji, c, d, hf, hcl, hdd, hmin⟩ :=
        Cluster.c52_inside hnd ho hreach (v := v) (by rw [hx0]; exact hv) (by rw [hxe]; exact hve)
      obtain ⟨c', ⟨hc1, hc2, hc3⟩, -⟩ := huniq i hi
      have hz : Cluster.signedDist x1 (Cluster.row full.clusters c') i = 0 := by
        unfold Cluster.signedDist
        rw [if_neg (by omega), if_neg (by omega)]
      have hd0 := hmin c' hc1
      rw [hz, abs_zero] at hd0
      have hd1 : d = 0 := abs_eq_zero.1 (le_antisymm hd0 (abs_nonneg _))
      refine ⟨i, c, d, ⟨hi, hvi, hji⟩, hcl, hf, ?_⟩
      exact signedDist_zero hd.inc hi (hinv.wf.valid _ (Cluster.row_mem hcl)) (by rw [← hdd, hd1])

/-- The object with its variables completed. -/
def completed (o : Obj K) (s : PX K) : Obj K := { o with vars := s }

/-- **C67.** What `estimate_peak` returns and changes, given that the variables can be completed.  It returns a peak or
None or raises; a peak is removable, of one of the supplied functions, with all parameters free.  Only with `add=True` and a peak found is
anything changed beside the completed variables: that one peak is added to the extracted peaks if there are any
extracted, else to the initial peaks, and those are then in order of position. -/
theorem c67_adds_one (hS : Sane W) (hE : Estimates W) {o : Obj K} {s : PX K} (hdv : defaultvars D o.vars = (.ok (), s))
    {pf ip : ℕ} (hpf : s.pf = some pf) (hip : s.initialPeaks = some ip) (v : K) (add : Bool) {r : Res (Option (Part K))}
    {o' : Obj K} (h : estimatePeak W D o v add = (r, o')) :
    (∀ p, r = .ok (some p) → New W.func (o.heap.funcs pf) p) ∧
    ((add = false ∨ ∀ p, r ≠ .ok (some p)) → o' = completed o s) ∧
    (∀ p, add = true → r = .ok (some p) →
      (∀ c, o.extracted = some c → ∃ m, o' = { completed o s with extracted := some { c with model := m } } ∧
        m.Perm (p :: c.model) ∧ m.Pairwise (fun a b => pos a ≤ pos b)) ∧
      (o.extracted = none → o'.vars = s ∧ o'.extracted = none ∧ o'.heap.base = o.heap.base ∧ o'.heap.funcs = o.heap.funcs ∧
        (∀ j, j ≠ ip → o'.heap.peaks j = o.heap.peaks j) ∧ (o'.heap.peaks ip).Perm (p :: o.heap.peaks ip) ∧
        (o'.heap.peaks ip).Pairwise (fun a b => pos a ≤ pos b))) := by
  have hmodel : ∀ m, nearFit W { o with vars := s } v = .ok m →
      Keys (Supplied W.func (o.heap.funcs pf)) m ∧ m.length ≤ 1 := by
    intro m hm
    unfold nearFit at hm
    split at hm
    · rename_i cres em pf' hcres hem hpf'
      have hpp : pf' = pf := by
        have := hpf'.symm.trans hpf
        simpa using this
      subst hpp
      split at hm
      · simp at hm
      · split at hm
        · simp at hm
        · rename_i xs ys es _
          split at hm
          · simp at hm
          · rename_i mc hmc
            obtain ⟨hof, -, hmd, -⟩ := newCluster_of (Q := Supplied W.func (o.heap.funcs pf')) Keys.nil hmc
            split at hm
            · simp at hm
            · rename_i mc' hmc'
              simp only [Except.ok.injEq] at hm
              subst hm
              have hsup := supplies hE ⟨xs, ys, es, o.heap.base 0, [], cres, em, o.heap.funcs pf'⟩
              unfold fitted at hmc'
              have hk := fit_keys hS hsup (o := {}) hof.funcs hof.keys
              obtain ⟨-, hd, -⟩ := fit_data (hS.tame mc) {} mc
              split at hmc'
              · simp at hmc'
              · rename_i q c' l heq
                simp only [Except.ok.injEq] at hmc'
                subst hmc'
                rw [heq] at hk hd
                refine ⟨hk, ?_⟩
                rcases hd with hd | ⟨-, -, p, -, hd⟩
                · have := hd.length; rw [hmd] at this; simp at this; simp [this]
                · simpa using hd.length
    · simp at hm
  unfold estimatePeak at h
  rw [hdv] at h
  simp only at h
  cases hn : nearFit W { o with vars := s } v with
  | error e =>
    rw [hn] at h
    simp only [Prod.mk.injEq] at h
    obtain ⟨rfl, rfl⟩ := h
    exact ⟨by simp, fun _ => rfl, by simp⟩
  | ok m =>
    rw [hn] at h
    obtain ⟨hk, hl⟩ := hmodel m hn
    match m, hk, hl with
    | [], _, _ =>
      simp only [Prod.mk.injEq] at h
      obtain ⟨rfl, rfl⟩ := h
      exact ⟨by simp, fun _ => rfl, by simp⟩
    | [p], hk, _ =>
      have hp := hk p (by simp)
      cases add with
      | false =>
        simp only [Bool.false_eq_true, if_false, Prod.mk.injEq] at h
        obtain ⟨rfl, rfl⟩ := h
        refine ⟨?_, fun _ => rfl, by simp⟩
        intro q hq
        simp only [Except.ok.injEq, Option.some.injEq] at hq
        subst hq; exact hp
      | true =>
        simp only [if_true] at h
        have hsort : ∀ l : List (Part K), (sort W.as false pos l).Perm l ∧
            (sort W.as false pos l).Pairwise (fun a b => pos a ≤ pos b) := by
          intro l
          have h37 := c37_sort hS.sorts false pos l
          exact ⟨h37.1, by simpa using h37.2⟩
        unfold addPeaks at h
        cases hx : o.extracted with
        | some c =>
          simp only [hx] at h
          rw [replace0] at h
          simp only [Prod.mk.injEq] at h
          obtain ⟨rfl, rfl⟩ := h
          refine ⟨?_, ?_, ?_⟩
          · intro q hq
            simp only [Except.ok.injEq, Option.some.injEq] at hq
            subst hq; exact hp
          · rintro (hc | hc)
            · simp at hc
            · exact absurd rfl (hc p)
          · intro q _ hq
            simp only [Except.ok.injEq, Option.some.injEq] at hq
            subst hq
            refine ⟨?_, fun hc => by simp at hc⟩
            intro c' hc'
            simp only [Option.some.injEq] at hc'
            subst hc'
            exact ⟨_, rfl, by simpa using (hsort _).1, (hsort _).2⟩
        | none =>
          simp only [hx, hip, Prod.mk.injEq] at h
          obtain ⟨rfl, rfl⟩ := h
          refine ⟨?_, ?_, ?_⟩
          · intro q hq
            simp only [Except.ok.injEq, Option.some.injEq] at hq
            subst hq; exact hp
          · rintro (hc | hc)
            · simp at hc
            · exact absurd rfl (hc p)
          · intro q _ hq
            simp only [Except.ok.injEq, Option.some.injEq] at hq
            subst hq
            refine ⟨fun c hc => by simp at hc, fun _ => ⟨rfl, rfl, rfl, rfl, ?_, ?_, ?_⟩⟩
            · intro j hj
              simp [Function.update_of_ne hj]
            · simp only [Function.update_self]
              exact (hsort _).1.trans (List.perm_append_singleton _ _)
            · simp only [Function.update_self]
              exact (hsort _).2
    | _ :: _ :: _, _, hl => simp at hl

theorem inRange_zipWith (f : K → K → K) (a b : K) : ∀ (x l : List K), l.length = x.length →
    inRange x a b (List.zipWith f x l) = List.zipWith f (inRange x a b x) (inRange x a b l) := by
  intro x
  induction x with
  | nil => intro l _; simp [inRange]
  | cons v x ih =>
    intro l hl
    match l, hl with
    | w :: l, hl =>
      have := ih l (by simpa using hl)
      unfold inRange at this ⊢
      by_cases h : a ≤ v ∧ v ≤ b
      · simp only [List.zipWith_cons_cons, List.zip_cons_cons, List.filter_cons, h, and_self, decide_true, if_true, List.map_cons]
        rw [this]
      · simp only [List.zipWith_cons_cons, List.zip_cons_cons, List.filter_cons, h, decide_false, Bool.false_eq_true, if_false]
        exact this

/-- **C67.** The unexplained data: without extracted peaks, the data in the range less the baseline and the initial
peaks; with extracted peaks, the data of the extracted cluster less its baseline and its peaks. -/
theorem c67_unexplained {o : Obj K} {s : PX K} {x y : List K} (hr : Ready o.vars x y)
    (hdv : defaultvars D o.vars = (.ok (), s)) {J : Job K} (hJ : jobOf o.heap s = .ok J) (hne : J.x ≠ []) :
    (o.extracted = none → ∃ x0 x1 e bl ip, x.head? = some x0 ∧ x.getLast? = some x1 ∧ s.effdy = .array e ∧
      s.baseline = some (.inst bl) ∧ s.initialPeaks = some ip ∧
      grid W (completed o s) = .ok
        (inRange x (rangeOf o.vars x0 x1).1 (rangeOf o.vars x0 x1).2 x,
         inRange x (rangeOf o.vars x0 x1).1 (rangeOf o.vars x0 x1).2
           (List.zipWith (fun a b => b - (W.val (o.heap.base bl) a + ((o.heap.peaks ip).map (fun p => W.val p a)).sum)) x y),
         inRange x (rangeOf o.vars x0 x1).1 (rangeOf o.vars x0 x1).2 e)) ∧
    (∀ c sl, o.extracted = some c → c.slice = some sl → grid W (completed o s) = .ok
        (sl.get c.r,
         List.zipWith (fun a b => b - (valuebl W c.baseline a + (c.model.map (fun p => W.val p a)).sum)) (sl.get c.r) (sl.get c.y),
         sl.get c.err)) := by
  have hsum : ∀ (m : List (Part K)) a, valueAt W.val m a = (m.map (fun p => W.val p a)).sum := by
    intro m a
    rfl
  refine ⟨?_, ?_⟩
  · intro hx
    obtain ⟨x0, x1, e, hx0, hx1, he, d1, d2, d3⟩ := job_range hr hdv hJ hne
    obtain ⟨x', y', e', a, b, bl, ip, cres, em, pf, lo, hi, h1, h2, h3, h4, h5, h6, h7, h8, h9, h10, hJe⟩ := jobOf_ok hJ
    refine ⟨x0, x1, e, bl, ip, hx0, hx1, he, h5, h6, ?_⟩
    rw [inRange_zipWith _ _ _ _ _ hr.leny, ← d1, ← d2, ← d3]
    unfold grid completed
    simp only [hx, hJ]
    rw [hJe]
    simp only [hsum, sub_sub]
  · intro c sl hc hs
    unfold grid completed
    simp only [hc, hs, clusterValue, hsum]

/-- **C67.** When nothing comes of it: outside the unexplained data, ValueError; where no point of the cluster rises
above its uncertainty, or no peak function can estimate a peak, None. -/
theorem c67_none {o : Obj K} {s : PX K} (hdv : defaultvars D o.vars = (.ok (), s)) {cres : K} {em pf : ℕ}
    (hc : s.cres = some cres) (he : s.errorMethod = some em) (hp : s.pf = some pf) {x1 y1 dy : List K}
    (hg : grid W (completed o s) = .ok (x1, y1, dy)) (v : K) (add : Bool) :
    (∀ x0 xe, x1.head? = some x0 → x1.getLast? = some xe → (v < x0 ∨ xe < v) →
      estimatePeak W D o v add = (.error .value, completed o s)) ∧
    (∀ xs ys es, nearData W cres x1 y1 dy v = .ok (xs, ys, es) → xs ≠ [] → xs.length = ys.length → ys.length = es.length →
      ((∀ i (h1 : i < ys.length) (h2 : i < es.length), ys[i] < es[i]) ∨
        (∀ c : Cluster K, c.r = xs → c.y = ys → c.err = es → c.baseline = none → c.model = [] →
          (W.env c).estimate = .error .estimation)) →
      estimatePeak W D o v add = (.ok none, completed o s)) := by
  have hg' : grid W { o with vars := s } = .ok (x1, y1, dy) := hg
  refine ⟨?_, ?_⟩
  · intro x0 xe h0 h1 hv
    have hn : nearData W cres x1 y1 dy v = .error .value := by
      unfold nearData
      simp only [h0, h1, if_pos hv]
    unfold estimatePeak nearFit
    simp only [hdv, hc, he, hp, hg', hn]
    rfl
  · intro xs ys es hn hxs hl1 hl2 hno
    have hfit : nearFit W { o with vars := s } v = .ok [] := by
      unfold nearFit
      simp only [hc, he, hp, hg', hn]
      have hex : ∀ c : Cluster K, c.r = xs → c.y = ys → c.err = es → c.baseline = none →
          excess W c = List.zipWith (fun b e => b - e) ys es := by
        intro c e1 e2 e3 e4
        unfold excess
        rw [e1, e2, e3, e4]
        apply List.ext_getElem
        · simp [hl1]
        · intro i _ _
          simp [valuebl]
      obtain ⟨b, hmc, hb⟩ : ∃ b, newCluster W ⟨xs, ys, es, o.heap.base 0, [], cres, em, o.heap.funcs pf⟩ [] none xs ys es none =
          .ok ⟨[], none, xs, ys, es, 0, 0, 0, em, o.heap.funcs pf, some ⟨none, xs.length⟩, 0, b⟩ ∧
          ((∀ i (h1 : i < ys.length) (h2 : i < es.length), ys[i] < es[i]) → b = true) := by
        refine ⟨(List.zipWith (fun b e => b - e) ys es).all (fun v => decide (v < 0)), ?_, ?_⟩
        · unfold newCluster changeSlice updateNever
          simp only [Option.getD_none, Slice.get]
          rw [hex _ rfl rfl rfl rfl]
          have hlen : (List.zipWith (fun b e => b - e) ys es).length = xs.length := by simp [hl1, hl2]
          have hall : getSlice (List.zipWith (fun b e => b - e) ys es) (some (0, xs.length)) =
              List.zipWith (fun b e => b - e) ys es := by
            rw [← hlen]; simp [getSlice, bounds]
          rw [hall]
          have hnil : List.zipWith (fun (b e : K) => b - e) ys es ≠ [] := by
            intro h0
            rw [h0] at hlen
            exact hxs (List.length_eq_zero_iff.1 hlen.symm)
          simp [maxNeg, hnil]
        · intro h
          rw [List.all_eq_true]
          intro w hw
          obtain ⟨i, hi, rfl⟩ := List.mem_iff_getElem.1 hw
          simp only [List.length_zipWith, lt_min_iff] at hi
          simpa using h i hi.1 hi.2
      rw [hmc]
      simp only
      unfold fitted ModelCluster.fit
      rcases hno with hno | hno
      · rw [if_pos (hb hno)]
      · cases hbb : b with
        | true => simp
        | false =>
          simp only [Bool.false_eq_true, if_false, if_true]
          have hest := hno ⟨[], none, xs, ys, es, 0, 0, 0, em, o.heap.funcs pf, some ⟨none, xs.length⟩, 0, false⟩
            rfl rfl rfl rfl rfl
          unfold estimatepeak
          rw [hest]
    unfold estimatePeak
    simp only [hdv, hfit]
    rfl

/-- The peak found near `v`, and the extracted or initial peaks afterwards. -/
def foundNear (o : Obj ℚ) (v : ℚ) (add : Bool) : Option (List ℚ) × List (List ℚ) × List (List ℚ) :=
  match estimatePeak dotWorld dotDef o v add with
  | (.ok (some p), o') => (some p.pars, (o'.heap.peaks 1).map Part.pars, ((o'.extracted.map (fun c => c.model.map Part.pars)).getD []))
  | (_, o') => (none, (o'.heap.peaks 1).map Part.pars, [])

/-- Instance of C67: with the initial peak at 2, near 7/2 the peak at 4 is found and added to the initial peaks; near 1/2 the
one at 1 is found; with `add=False` nothing is added. -/
example : foundNear ⟨dotVars (some 1) none, dotHeap, none⟩ (7/2) true = (some [4, 2], [[2, 5], [4, 2]], []) ∧
    foundNear ⟨dotVars (some 1) none, dotHeap, none⟩ (1/2) true = (some [1, 3], [[1, 3], [2, 5]], []) ∧
    foundNear ⟨dotVars (some 1) none, dotHeap, none⟩ (7/2) false = (some [4, 2], [[2, 5]], []) := by
  refine ⟨?_, ?_, ?_⟩ <;> decide +kernel

/-- The variables with resolution 0: each point is a cluster of its own. -/
def finely : PX ℚ := { dotVars (some 1) none with cres := some 0 }

/-- Whether `estimate_peak` returned None. -/
def nothing (r : Res (Option (Part ℚ)) × Obj ℚ) : Bool :=
  match r.1 with
  | .ok none => true
  | _ => false

/-- Instances of `c67_none`: with resolution 0, at 3, where the data are 0, and at 2, where the initial peak explains
them, the answer is None. -/
example : nothing (estimatePeak dotWorld dotDef ⟨finely, dotHeap, none⟩ 3 true) = true ∧
    nothing (estimatePeak dotWorld dotDef ⟨finely, dotHeap, none⟩ 2 true) = true ∧
    nothing (estimatePeak dotWorld dotDef ⟨finely, dotHeap, none⟩ 1 true) = false := by
  refine ⟨?_, ?_, ?_⟩ <;> decide +kernel

end Verif.Parts.Extract
