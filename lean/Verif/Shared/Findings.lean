import Verif.Shared.Main
import Verif.ModelCluster.ValueExample
import Mathlib.Tactic.Linarith
import Mathlib.Tactic.Ring

/-!
# C112: never_fit, residuals, shared baselines; instances
-/

set_option linter.unusedSectionVars false

namespace Verif.Parts.Shared

open Verif.Py Verif.PeakList Verif.Parts.ModelCluster Verif.Parts.Extract

variable {K : Type} [Field K] [LinearOrder K]

/-! ### never_fit -/

/-- A series of calls that add no external peaks and fit no baseline, and in which no `change_slice` raises. -/
def Calm (W : World K) : Store K → List (Op K) → Prop
  | _, [] => True
  | S, op :: ops => ¬ Adds op ∧ ¬ FitsBaseline op ∧ (Slices op → (step W S op).1 = .ok ()) ∧ Calm W (step W S op).2 ops

theorem right_step (W : World K) {S : Store K} {op : Op K} (hS : Sound S) (ha : ¬ Adds op) (hf : ¬ FitsBaseline op)
    (hs : Slices op → (step W S op).1 = .ok ()) (h : ∀ o ∈ S.obj, Right W (load S o)) :
    ∀ o ∈ (step W S op).2.obj, Right W (load (step W S op).2 o) := by
  intro o ho
  obtain ⟨k, hk⟩ := List.mem_iff_getElem?.1 ho
  have harr : (step W S op).2.arr = S.arr := by
    funext q
    exact step_arr W S op q (fun _ _ _ _ hc => absurd hc ha)
  have hbase : ∀ b, b < S.base.length → (step W S op).2.base[b]? = S.base[b]? :=
    fun b hb => step_base W S op hb (fun _ _ _ _ hc => absurd hc hf)
  have hbl : ∀ (bl : Option ℕ), (∀ b, bl = some b → b < S.base.length) →
      bl.bind (fun b => (step W S op).2.base[b]?) = bl.bind (fun b => S.base[b]?) := by
    intro bl hb
    cases bl with
    | none => rfl
    | some b => exact hbase b (hb b rfl)
  rcases after_step W S op hk with ⟨h1, -⟩ | ⟨o1, ht, h1⟩ | ⟨-, -, -, hb⟩
  · have hm := List.mem_of_getElem? h1
    refine (h o hm).congr ?_ ?_ ?_ ?_ rfl (fun h => h)
    · show (step W S op).2.arr _ = _; rw [harr]; rfl
    · show (step W S op).2.arr _ = _; rw [harr]; rfl
    · show (step W S op).2.arr _ = _; rw [harr]; rfl
    · exact hbl _ (hS o hm).2.2
  · have hm := List.mem_of_getElem? h1
    obtain ⟨o', e1, e2, e3, e4, e5, e6⟩ := step_self W S op ht h1
    rw [hk] at e1
    simp only [Option.some.injEq] at e1
    subst e1
    obtain ⟨c1, c2⟩ := call_base W (load S o1) op hf
    -- the cluster after the call
    have hc : Right W (call W (load S o1) op).2.1 := by
      by_cases hsl : Slices op
      · have hok := hs hsl
        rw [step_call W S op ht h1] at hok
        cases op with
        | slice i s =>
          have : sliced W (load S o1) s = (.ok (), (sliced W (load S o1) s).2) := Prod.ext hok rfl
          exact sliced_right this (h o1 hm)
        | _ => exact absurd hsl (by simp [Slices])
      · have hd := call_same W (load S o1) op ha hsl
        exact (h o1 hm).congr hd.r hd.y hd.err c1 hd.slice (fun h => by rw [← hd.neverFit]; exact h)
    have hre := rebind_refs op (succeeded (call W (load S o1) op).1) { attrs o1 (call W (load S o1) op).2.1 with baseline := o.baseline }
    rw [← e6] at hre
    obtain ⟨a1, a2, a3, -, -, a6⟩ := call_arrays W (load S o1) op
    refine hc.congr ?_ ?_ ?_ ?_ ?_ ?_
    · show (step W S op).2.arr o.r = _; rw [harr, e2, a1]; rfl
    · show (step W S op).2.arr o.y = _; rw [harr, e3, a6 ha]; rfl
    · show (step W S op).2.arr o.e = _; rw [harr, e4, a2]; rfl
    · show o.baseline.bind _ = _
      rcases e5 with e5 | ⟨-, e5, e7⟩
      · rw [e5, hbl _ (hS o1 hm).2.2, c1]; rfl
      · rw [e5]; exact e7
    · have e := congrArg Obj.slice hre; exact e
    · intro hn
      have e := congrArg Obj.neverFit hre
      simp only at e
      rw [show (load (step W S op).2 o).neverFit = o.neverFit from rfl] at hn
      rw [e] at hn
      exact hn
  · exact hb.right

theorem right_run (W : World K) (ops : List (Op K)) : ∀ S : Store K, Sound S → Calm W S ops → (∀ o ∈ S.obj, Right W (load S o)) →
    ∀ o ∈ (run W S ops).obj, Right W (load (run W S ops) o) := by
  induction ops with
  | nil => exact fun S _ _ h => h
  | cons op ops ih =>
    intro S hS hC h
    obtain ⟨h1, h2, h3, h4⟩ := hC
    exact ih _ (sound_step W S op hS) h4 (right_step W hS h1 h2 h3 h)

/-- **C112.** Whatever else has been called — joins, copies, fits, additions and removals of peaks, changes of slices —, a cluster that is marked
as never to be fitted has no data point above its uncertainty over the baseline, as long as no external peaks were added and no baseline
fitted. -/
theorem c112_never_fit [IsStrictOrderedRing K] (W : World K) (S : Store K) (h0 : S.obj = []) (ops : List (Op K)) (hC : Calm W S ops) (o : Obj K)
    (ho : o ∈ (run W S ops).obj) (hn : o.neverFit = true) :
    ∃ s, o.slice = some s ∧ ∀ i x y e, s.start.getD 0 ≤ i → i < s.stop → ((run W S ops).arr o.r)[i]? = some x →
      ((run W S ops).arr o.y)[i]? = some y → ((run W S ops).arr o.e)[i]? = some e →
      y < valuebl W (load (run W S ops) o).baseline x + e := by
  have hs : Sound S := by intro o ho; rw [h0] at ho; simp at ho
  have hr := right_run W ops S hs hC (by rw [h0]; intro o ho; simp at ho) o ho
  have hsl := (sound_run W ops S hs o ho).1
  cases hsc : o.slice with
  | none => exact absurd hsc hsl
  | some s =>
    refine ⟨s, rfl, fun i x y e h1 h2 hx hy he => ?_⟩
    have := hr s hsc hn i (y - valuebl W (load (run W S ops) o).baseline x - e) h1 h2 (by
      unfold excess
      rw [List.getElem?_zipWith]
      have hx' : (load (run W S ops) o).r[i]? = some x := hx
      have hy' : (load (run W S ops) o).y[i]? = some y := hy
      have he' : (load (run W S ops) o).err[i]? = some e := he
      have hz : ((load (run W S ops) o).r.zip (load (run W S ops) o).y)[i]? = some (x, y) := by
        rw [List.zip, List.getElem?_zipWith, hx', hy']
      rw [hz, he'])
    linarith

/-! ### Added peaks -/

theorem cluster_ext {c d : Cluster K} (h1 : c.model = d.model) (h2 : c.baseline = d.baseline) (h3 : c.r = d.r) (h4 : c.y = d.y)
    (h5 : c.err = d.err) (h6 : c.rId = d.rId) (h7 : c.yId = d.yId) (h8 : c.eId = d.eId) (h9 : c.method = d.method) (h10 : c.funcs = d.funcs)
    (h11 : c.slice = d.slice) (h12 : c.lastFit = d.lastFit) (h13 : c.neverFit = d.neverFit) : c = d := by
  cases c
  cases d
  simp_all

/-- After `addexternalpeaks`, the cluster is the one of `Verif.Parts.ModelCluster.addexternalpeaks`. -/
theorem load_added (W : World K) {S : Store K} (hS : Sound S) {i : ℕ} {o : Obj K} (peaks : List (Part K)) (ho : S.obj[i]? = some o)
    (hr : o.y ≠ o.r) (he : o.y ≠ o.e) :
    ∃ o', (step W S (.add i peaks)).2.obj[i]? = some o' ∧
      load (step W S (.add i peaks)).2 o' = (addexternalpeaks W.as (load S o) peaks).2 := by
  obtain ⟨o', e1, e2, e3, e4, e5, e6⟩ := step_self W S (.add i peaks) rfl ho
  refine ⟨o', e1, ?_⟩
  have hre := rebind_refs (.add i peaks) (succeeded (call W (load S o) (.add i peaks)).1)
    { attrs o (call W (load S o) (.add i peaks)).2.1 with baseline := o'.baseline }
  rw [← e6] at hre
  obtain ⟨a1, a2, a3, a4, a5, -⟩ := call_arrays W (load S o) (.add i peaks)
  obtain ⟨c1, -⟩ := call_base W (load S o) (.add i peaks) (by simp [FitsBaseline])
  have hother : ∀ q, o.y ≠ q → (step W S (.add i peaks)).2.arr q = S.arr q := by
    intro q hq
    refine step_arr W S _ q (fun k ok ht hok _ => ?_)
    simp only [Op.target, Option.some.injEq] at ht
    subst ht
    rw [ho] at hok
    simp only [Option.some.injEq] at hok
    subst hok
    exact hq
  have hy : (step W S (.add i peaks)).2.arr o.y = (call W (load S o) (.add i peaks)).2.1.y := by
    rw [step_call W S (.add i peaks) rfl ho]
    simp only
    rw [(put_cases S i o (call W (load S o) (.add i peaks)).2.1 (call W (load S o) (.add i peaks)).2.2).1]
    unfold contents write
    have a4' : (call W (load S o) (.add i peaks)).2.1.yId = o.y := a4
    rw [if_pos a4'.symm]
  show load (step W S (.add i peaks)).2 o' = (call W (load S o) (.add i peaks)).2.1
  apply cluster_ext
  · have e := congrArg Obj.model hre; exact e
  · show o'.baseline.bind _ = _
    rcases e5 with e5 | ⟨-, e5, e7⟩
    · rw [e5, c1]
      show o.baseline.bind _ = o.baseline.bind _
      cases hob : o.baseline with
      | none => rfl
      | some b => exact step_base W S _ ((hS o (List.mem_of_getElem? ho)).2.2 b hob) (fun _ _ _ _ hc => by simp [FitsBaseline] at hc)
    · rw [e5]; exact e7
  · show (step W S (.add i peaks)).2.arr o'.r = _
    rw [e2, hother _ hr, a1]; rfl
  · show (step W S (.add i peaks)).2.arr o'.y = _
    rw [e3, hy]
  · show (step W S (.add i peaks)).2.arr o'.e = _
    rw [e4, hother _ he, a2]; rfl
  · rw [a3]; exact e2
  · rw [a4]; exact e3
  · rw [a5]; exact e4
  · have e := congrArg Obj.method hre; exact e
  · have e := congrArg Obj.funcs hre; exact e
  · have e := congrArg Obj.slice hre; exact e
  · have e := congrArg Obj.lastFit hre; exact e
  · have e := congrArg Obj.neverFit hre; exact e

/-- **C112.** External peaks added to one cluster: its own residual stays as it was, but in every other cluster on the same data they are
missing from the model, and the residual grows by their value. -/
theorem c112_residual [IsStrictOrderedRing K] (W : World K) (hW : SortsKeys W.as) {val : Part K → K → K} (S : Store K) (hS : Sound S)
    (i : ℕ) (o : Obj K) (peaks : List (Part K)) (ho : S.obj[i]? = some o) (hr : o.y ≠ o.r) (he : o.y ≠ o.e)
    (hlen : (S.arr o.y).length = (S.arr o.r).length ∧ (S.arr o.e).length = (S.arr o.r).length)
    (hp : PointwiseBy val peaks) (hv : PointwiseBy val (parts (load S o))) :
    (step W S (.add i peaks)).1 = .ok () ∧
    (∃ o', (step W S (.add i peaks)).2.obj[i]? = some o' ∧
      clusterResidual (load (step W S (.add i peaks)).2 o') = clusterResidual (load S o)) ∧
    ∀ (j : ℕ) (oj : Obj K) (s : Slice), j ≠ i → S.obj[j]? = some oj → oj.y = o.y → oj.r = o.r → oj.slice = some s →
      PointwiseBy val (parts (load S oj)) → (S.arr oj.e).length = (S.arr o.r).length →
      (step W S (.add i peaks)).2.obj[j]? = some oj ∧
      ∃ v, clusterResidual (load S oj) = .ok v ∧ clusterResidual (load (step W S (.add i peaks)).2 oj) =
        .ok (List.zipWith (fun x d => d + curve val peaks x) (s.get (S.arr o.r)) v) := by
  have hsl := (hS o (List.mem_of_getElem? ho)).1
  cases hso : o.slice with
  | none => exact absurd hso hsl
  | some so =>
    obtain ⟨c', g1, -, -, g4, -, g6, -⟩ := c94_external W.as hW (load S o) peaks hv hp hlen (s := so) hso false
    have hok : (step W S (.add i peaks)).1 = .ok () := by
      rw [step_call W S (.add i peaks) rfl ho]
      show (addexternalpeaks W.as (load S o) peaks).1 = _
      rw [g1]
    obtain ⟨o', l1, l2⟩ := load_added W hS peaks ho hr he
    rw [g1] at l2
    refine ⟨hok, ⟨o', l1, by rw [l2]; exact g6⟩, ?_⟩
    intro j oj s hji hoj hy hrj hsj hvj hej
    have ht : (Op.add i peaks).target ≠ some j := by
      simp only [Op.target, ne_eq, Option.some.injEq]; exact fun e => hji e.symm
    refine ⟨step_obj W S _ ht hoj, ?_⟩
    have hd : load (step W S (.add i peaks)).2 oj =
        { load S oj with y := List.zipWith (fun x y => y + curve val peaks x) (S.arr o.r) (S.arr o.y), err := (step W S (.add i peaks)).2.arr oj.e } := by
      apply cluster_ext <;> try rfl
      · show oj.baseline.bind _ = oj.baseline.bind _
        cases hob : oj.baseline with
        | none => rfl
        | some b =>
          exact step_base W S _ ((hS oj (List.mem_of_getElem? hoj)).2.2 b hob) (fun _ _ _ _ hc => by simp [FitsBaseline] at hc)
      · show (step W S (.add i peaks)).2.arr oj.r = S.arr oj.r
        refine step_arr W S _ _ (fun k ok ht' hok' _ => ?_)
        simp only [Op.target, Option.some.injEq] at ht'
        subst ht'
        rw [ho] at hok'
        simp only [Option.some.injEq] at hok'
        subst hok'
        rw [hrj]
        exact hr
      · show (step W S (.add i peaks)).2.arr oj.y = _
        rw [hy]
        exact ((added_array (W := W) ho hp).1 (by rw [hok]; rfl)).2
    have hEven : Even (load S oj) := ⟨by show (S.arr oj.y).length = (S.arr oj.r).length; rw [hy, hrj]; exact hlen.1,
      by show (S.arr oj.e).length = (S.arr oj.r).length; rw [hrj]; exact hej⟩
    obtain ⟨v, _, v1, -, -, v2, -⟩ := c94_residual (load S oj) hvj hEven (s := s) hsj
    have hEven' : Even (load (step W S (.add i peaks)).2 oj) := by
      rw [hd]
      refine ⟨?_, ?_⟩
      · show (List.zipWith _ (S.arr o.r) (S.arr o.y)).length = (S.arr oj.r).length
        rw [List.length_zipWith, hrj, hlen.1]; simp
      · show ((step W S (.add i peaks)).2.arr oj.e).length = (S.arr oj.r).length
        rw [hrj]
        by_cases hc : oj.e = o.y
        · rw [hc, ((added_array (W := W) ho hp).1 (by rw [hok]; rfl)).2, List.length_zipWith, hlen.1]; simp
        · rw [step_arr W S _ oj.e (fun k ok ht' hok' _ => by
            simp only [Op.target, Option.some.injEq] at ht'
            subst ht'
            rw [ho] at hok'
            simp only [Option.some.injEq] at hok'
            subst hok'
            exact fun e => hc e.symm)]
          exact hej
    have hvj' : PointwiseBy val (parts (load (step W S (.add i peaks)).2 oj)) := by rw [hd]; exact hvj
    obtain ⟨w, _, w1, -, -, w2, -⟩ := c94_residual (load (step W S (.add i peaks)).2 oj) hvj' hEven' (s := s) (by rw [hd]; exact hsj)
    refine ⟨v, v1, ?_⟩
    rw [w1, w2, v2, hd]
    congr 1
    have hz : s.get (List.zipWith (fun x y => y + curve val peaks x) (S.arr o.r) (S.arr o.y)) =
        List.zipWith (fun x y => y + curve val peaks x) (s.get (S.arr o.r)) (s.get (S.arr o.y)) :=
      getSlice_zipWith _ _ _ _ hlen.1.symm
    have hl : (s.get (S.arr o.y)).length = (s.get (S.arr o.r)).length := length_getSlice_eq _ hlen.1
    show List.zipWith (fun x y => y - curve val (parts (load S oj)) x) (s.get (S.arr oj.r))
        (s.get (List.zipWith (fun x y => y + curve val peaks x) (S.arr o.r) (S.arr o.y))) = _
    rw [hz, hrj]
    show _ = List.zipWith _ _ (List.zipWith (fun x y => y - curve val (parts (load S oj)) x) (s.get (S.arr oj.r)) (s.get (S.arr oj.y)))
    rw [hrj, hy]
    apply List.ext_getElem (by simp)
    intro n h1 h2
    simp only [List.getElem_zipWith]
    ring

/-! ### Shared baselines -/

/-- A fit that is rejected leaves the cluster with the baseline it had. -/
theorem fit_reverted (E : Env K) (o : Opts) (c : Cluster K) (h : (ModelCluster.fit E o c).1 = .ok none) :
    (ModelCluster.fit E o c).2.1.baseline = c.baseline := by
  have core : ∀ c : Cluster K, (fitCore E o c).1 = .ok none → (fitCore E o c).2.1.baseline = c.baseline := by
    intro c h
    unfold fitCore at h ⊢
    simp only at h ⊢
    generalize launch E o c = l at h ⊢
    obtain ⟨res, m0, bl⟩ := l
    cases res with
    | error e => cases e <;> first | rfl | (simp at h)
    | ok u =>
      simp only at h ⊢
      generalize Evaluator.lt (E.quality (E.clean (sort E.as false pos m0)) bl) (E.quality c.model c.baseline) = v at h ⊢
      rcases v with e | v
      · simp at h
      · cases v with
        | true => rfl
        | false =>
          simp only at h ⊢
          split at h
          · rename_i hg; rw [if_pos hg]
          · simp at h
  unfold ModelCluster.fit at h ⊢
  split
  · rfl
  · rename_i hn
    rw [if_neg hn] at h
    split
    · rename_i hm
      rw [if_pos hm] at h
      split
      · rename_i he
        rw [if_pos he] at h
        generalize estimatepeak E c.model = u at h ⊢
        obtain ⟨u1, u2⟩ := u
        cases u1 with
        | error e => cases e <;> rfl
        | ok v => exact core { c with model := u2 } h
      · rfl
    · rename_i hm
      rw [if_neg hm] at h
      exact core c h

/-- **C112 (finding).** Clusters that were made with the same baseline object, or joined, share it: when a fit of one of them varies the
baseline, the baseline of the other one becomes the fitted one — also when the fit is rejected and the first cluster gets its old
baseline back. -/
theorem c112_shared_baseline (W : World K) (S : Store K) (i j : ℕ) (oi oj : Obj K) (o : Opts) (b : ℕ) (c1 : Cluster K) (q : Part K)
    (hij : i ≠ j) (hi : S.obj[i]? = some oi) (hj : S.obj[j]? = some oj) (hbi : oi.baseline = some b) (hbj : oj.baseline = some b)
    (hb : b < S.base.length) (h1 : started (W.env (load S oi)) o (load S oi) = some c1)
    (h2 : (launch (W.env (load S oi)) o c1).2.2 = some q) :
    (step W S (.fit i o)).2.obj[j]? = some oj ∧ (load (step W S (.fit i o)).2 oj).baseline = some q ∧
    ((ModelCluster.fit (W.env (load S oi)) o (load S oi)).1 = .ok none →
      ∃ oi', (step W S (.fit i o)).2.obj[i]? = some oi' ∧ oi'.baseline ≠ some b ∧
        (load (step W S (.fit i o)).2 oi').baseline = (load S oi).baseline) := by
  have hcont : (call W (load S oi) (.fit i o)).2.2.content = some q := by
    show (fateFit _ o _).content = _
    unfold fateFit
    rw [h1]
    simp only
    split <;> exact h2
  have hbase : (step W S (.fit i o)).2.base[b]? = some q := by
    rw [step_call W S (.fit i o) rfl hi]
    simp only
    have hw : (written S.base oi.baseline (call W (load S oi) (.fit i o)).2.2.content)[b]? = some q := by
      rw [hbi, hcont]
      exact List.getElem?_set_self hb
    have hl := set_length S oi (call W (load S oi) (.fit i o)).2.2
    obtain ⟨-, base, e, ⟨h', -⟩ | ⟨p, -, -, -, h', -⟩⟩ := put_cases S i oi (call W (load S oi) (.fit i o)).2.1
      (call W (load S oi) (.fit i o)).2.2
    · rw [h', e]; exact hw
    · rw [h', List.getElem?_append_left (by rw [e, hl]; exact hb), e]; exact hw
  refine ⟨step_obj W S _ (by simpa [Op.target] using hij) hj, ?_, ?_⟩
  · show oj.baseline.bind _ = _
    rw [hbj]; exact hbase
  · intro hrej
    have hlt : i < S.obj.length := by
      by_contra hc
      rw [List.getElem?_eq_none (by omega)] at hi
      simp at hi
    have hcb : (call W (load S oi) (.fit i o)).2.1.baseline = S.base[b]? := by
      show (ModelCluster.fit (W.env (load S oi)) o (load S oi)).2.1.baseline = _
      rw [fit_reverted _ _ _ hrej]
      show oi.baseline.bind _ = _
      rw [hbi]; rfl
    rw [List.getElem?_eq_getElem hb] at hcb
    have hcp : (call W (load S oi) (.fit i o)).2.2.copied = true := by
      show (fateFit _ o _).copied = _
      unfold fateFit
      rw [h1]
      simp only
      split
      · rfl
      · rename_i hne
        exfalso
        refine hne (ModelCluster.fit (W.env (load S oi)) o (load S oi)).2.1 (ModelCluster.fit (W.env (load S oi)) o (load S oi)).2.2 ?_
        rw [← hrej]
    have hl := set_length S oi (call W (load S oi) (.fit i o)).2.2
    have hput : put S i oi (call W (load S oi) (.fit i o)).2.1 (call W (load S oi) (.fit i o)).2.2 =
        ⟨contents S.arr (call W (load S oi) (.fit i o)).2.1,
          written S.base oi.baseline (call W (load S oi) (.fit i o)).2.2.content ++ [S.base[b]],
          S.obj.set i { attrs oi (call W (load S oi) (.fit i o)).2.1 with
            baseline := some (written S.base oi.baseline (call W (load S oi) (.fit i o)).2.2.content).length }⟩ := by
      unfold put
      simp only [hcp, hcb, hbi]
    rw [step_call W S (.fit i o) rfl hi]
    simp only [hput]
    refine ⟨_, by rw [List.getElem?_modify_eq, List.getElem?_set_self hlt]; rfl, ?_, ?_⟩
    · simp only [rebind, hl, ne_eq, Option.some.injEq]; omega
    · simp [load, rebind, hbi, List.getElem?_eq_getElem hb]

end Verif.Parts.Shared
