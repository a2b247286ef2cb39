import Verif.Shared.Props

/-!
# C112: histories of calls on several clusters
-/

set_option linter.unusedSectionVars false

namespace Verif.Parts.Shared

open Verif.Py Verif.PeakList Verif.Parts.ModelCluster Verif.Parts.Extract

variable {K : Type} [Field K] [LinearOrder K]

/-! ### The data arrays -/

/-- The peaks that a call adds, if it does not raise, to a cluster with ordinates `k`. -/
def gain (W : World K) (S : Store K) (op : Op K) (k : ℕ) : List (Part K) :=
  match op with
  | .add i peaks => if S.obj[i]?.map Obj.y = some k ∧ succeeded (step W S op).1 then peaks else []
  | _ => []

/-- The peaks that have been added, by calls that did not raise, to clusters with ordinates `k`. -/
def gains (W : World K) : Store K → List (Op K) → ℕ → List (Part K)
  | _, [], _ => []
  | S, op :: ops, k =>
    gain W S op k ++ gains W (step W S op).2 ops k

/-- The array `k` of ordinates belongs to the abscissae `q`, which are nobody's ordinates: for the clusters there are and those that the
calls make. -/
structure Belongs (k q : ℕ) (S : Store K) (ops : List (Op K)) : Prop where
  grid : ∀ o ∈ S.obj, o.y = k → o.r = q
  free : ∀ o ∈ S.obj, o.y ≠ q
  later : ∀ m bl r y e s me f, Op.make m bl r y e s me f ∈ ops → (y = k → r = q) ∧ y ≠ q

theorem step_refs (W : World K) (S : Store K) (op : Op K) (P : ℕ → ℕ → Prop) (h : ∀ o ∈ S.obj, P o.r o.y)
    (hm : ∀ m bl r y e s me f, op = Op.make m bl r y e s me f → P r y) : ∀ o ∈ (step W S op).2.obj, P o.r o.y := by
  intro o ho
  obtain ⟨k, hk⟩ := List.mem_iff_getElem?.1 ho
  rcases after_step W S op hk with ⟨h1, -⟩ | ⟨o1, ht, h1⟩ | ⟨ht, -, hobj, hb⟩
  · exact h o (List.mem_of_getElem? h1)
  · obtain ⟨o', e1, e2, e3, -⟩ := step_self W S op ht h1
    rw [hk] at e1
    simp only [Option.some.injEq] at e1
    subst e1
    rw [e2, e3]
    exact h o1 (List.mem_of_getElem? h1)
  · rcases hb.origin with ⟨m, bl, r, y, e, s, me, f, e0, e1, e2, -⟩ | ⟨_, oi, -, ho1, e1, e2, -⟩ | ⟨_, _, oi, -, ho1, e1, e2, -⟩
    · rw [e1, e2]; exact hm m bl r y e s me f e0
    · rw [e1, e2]; exact h oi (List.mem_of_getElem? ho1)
    · rw [e1, e2]; exact h oi (List.mem_of_getElem? ho1)

theorem belongs_step (W : World K) {S : Store K} {op : Op K} {ops : List (Op K)} {k q : ℕ} (h : Belongs k q S (op :: ops)) :
    Belongs k q (step W S op).2 ops := by
  have := step_refs W S op (fun r y => (y = k → r = q) ∧ y ≠ q) (fun o ho => ⟨h.grid o ho, h.free o ho⟩)
    (fun m bl r y e s me f e0 => h.later m bl r y e s me f (by rw [e0]; simp))
  exact ⟨fun o ho => (this o ho).1, fun o ho => (this o ho).2, fun m bl r y e s me f hm => h.later m bl r y e s me f (by simp [hm])⟩

/-- What one call of `addexternalpeaks` writes. -/
theorem added_array {W : World K} {S : Store K} {i : ℕ} {o : Obj K} {peaks : List (Part K)} (ho : S.obj[i]? = some o)
    {val : Part K → K → K} (hp : PointwiseBy val peaks) :
    (succeeded (step W S (.add i peaks)).1 = true → (S.arr o.y).length = (S.arr o.r).length ∧
      (step W S (.add i peaks)).2.arr o.y = List.zipWith (fun x y => y + curve val peaks x) (S.arr o.r) (S.arr o.y)) ∧
    (succeeded (step W S (.add i peaks)).1 = false → (step W S (.add i peaks)).2.arr o.y = S.arr o.y) := by
  rw [step_call W S (.add i peaks) rfl ho]
  simp only
  rw [(put_cases S i o (call W (load S o) (.add i peaks)).2.1 (call W (load S o) (.add i peaks)).2.2).1]
  have hy : ∀ c : Cluster K, c.yId = o.y → contents S.arr c o.y = c.y := by
    intro c hc
    unfold contents write
    rw [if_pos hc.symm]
  rw [hy _ (call_arrays W (load S o) (.add i peaks)).2.2.2.1]
  show (succeeded (addexternalpeaks W.as (load S o) peaks).1 = true → _ ∧ (addexternalpeaks W.as (load S o) peaks).2.y = _) ∧
    (succeeded (addexternalpeaks W.as (load S o) peaks).1 = false → (addexternalpeaks W.as (load S o) peaks).2.y = _)
  unfold addexternalpeaks
  generalize replacepeaks W.as (load S o).model peaks 0 0 = u
  obtain ⟨u1, u2⟩ := u
  cases u1 with
  | error e => exact ⟨fun h => by simp [succeeded] at h, fun _ => rfl⟩
  | ok _ =>
    simp only
    rw [parts_value_pointwise hp]
    simp only
    unfold addArr
    by_cases hl : (load S o).y.length = ((load S o).r.map (curve val peaks)).length
    · rw [if_pos hl]
      refine ⟨fun _ => ⟨by simpa [load] using hl, ?_⟩, fun h => by simp [succeeded] at h⟩
      show List.zipWith _ (S.arr o.y) ((S.arr o.r).map _) = _
      rw [List.zipWith_map_right, List.zipWith_comm]
    · rw [if_neg hl]
      exact ⟨fun h => by simp [succeeded] at h, fun _ => rfl⟩

theorem zipWith_zipWith (f g : K → K) : ∀ (r y : List K),
    List.zipWith (fun x y => y + g x) r (List.zipWith (fun x y => y + f x) r y) = List.zipWith (fun x y => y + (f x + g x)) r y
  | [], _ => rfl
  | _ :: _, [] => rfl
  | x :: r, y :: l => by
    simp only [List.zipWith_cons_cons, zipWith_zipWith f g r l, List.cons.injEq, and_true]
    ring

theorem zipWith_zero : ∀ (r y : List K), y.length = r.length → List.zipWith (fun (x y : K) => y + curve (fun (_ : Part K) (_ : K) => (0 : K)) [] x) r y = y
  | [], y, h => by
    cases y with
    | nil => rfl
    | cons _ _ => simp at h
  | _ :: r, [], h => by simp at h
  | x :: r, y :: l, h => by
    have := zipWith_zero r l (by simpa using h)
    simp only [List.zipWith_cons_cons, this, List.cons.injEq, and_true]
    simp [curve]

/-- **C112.** Data are changed by `addexternalpeaks` only.  After any series of calls on any clusters, abscissae and uncertainties are as
they were, and to the ordinates the values of all the external peaks have been added that were given to any cluster with these
ordinates — on all points, not only on those of the cluster. -/
theorem c112_data (W : World K) {val : Part K → K → K} (S : Store K) (ops : List (Op K)) (k : ℕ) :
    ((∀ o ∈ S.obj, o.y ≠ k) → (∀ m bl r y e s me f, Op.make m bl r y e s me f ∈ ops → y ≠ k) → (run W S ops).arr k = S.arr k) ∧
    ((∀ i peaks, Op.add i peaks ∈ ops → PointwiseBy val peaks) → ∀ q, Belongs k q S ops → (S.arr k).length = (S.arr q).length →
      (run W S ops).arr q = S.arr q ∧
      (run W S ops).arr k = List.zipWith (fun x y => y + curve val (gains W S ops k) x) (S.arr q) (S.arr k)) := by
  have first : ∀ (ops : List (Op K)) (S : Store K) (k : ℕ), (∀ o ∈ S.obj, o.y ≠ k) →
      (∀ m bl r y e s me f, Op.make m bl r y e s me f ∈ ops → y ≠ k) → (run W S ops).arr k = S.arr k := by
    intro ops
    induction ops with
    | nil => exact fun S k _ _ => rfl
    | cons op ops ih =>
      intro S k h1 h2
      have h3 := step_refs W S op (fun _ y => y ≠ k) h1 (fun m bl r y e s me f e0 => h2 m bl r y e s me f (by rw [e0]; simp))
      have := ih (step W S op).2 k h3 (fun m bl r y e s me f hm => h2 m bl r y e s me f (by simp [hm]))
      show (run W (step W S op).2 ops).arr k = _
      rw [this]
      exact step_arr W S op k (fun i oi _ ho _ => h1 oi (List.mem_of_getElem? ho))
  refine ⟨first ops S k, ?_⟩
  induction ops generalizing S with
  | nil =>
    intro _ q _ hl
    refine ⟨rfl, ?_⟩
    have := zipWith_zero (S.arr q) (S.arr k) hl
    simpa [gains, curve, run] using this.symm
  | cons op ops ih =>
    intro hp q hB hl
    have hq : (step W S op).2.arr q = S.arr q := step_arr W S op q (fun i oi _ ho _ => hB.free oi (List.mem_of_getElem? ho))
    have hB' := belongs_step W hB
    -- the present call
    have hk : (step W S op).2.arr k = List.zipWith (fun x y => y + curve val (gain W S op k) x) (S.arr q) (S.arr k) := by
      have hz : (step W S op).2.arr k = S.arr k → ∀ l : List (Part K), l = [] →
          (step W S op).2.arr k = List.zipWith (fun x y => y + curve val l x) (S.arr q) (S.arr k) := by
        intro h l hl'
        subst hl'
        rw [h]
        have := zipWith_zero (S.arr q) (S.arr k) hl
        simpa [curve] using this.symm
      by_cases ha : Adds op
      · cases op with
        | add i peaks =>
          cases ho : S.obj[i]? with
          | none =>
            apply hz
            · rw [step_missing W S _ rfl ho]
            · simp [gain, ho]
          | some o =>
            by_cases hy : o.y = k
            · obtain ⟨g1, g2⟩ := added_array (W := W) ho (hp i peaks (by simp))
              cases hs : succeeded (step W S (.add i peaks)).1 with
              | false =>
                apply hz
                · rw [← hy]; exact g2 hs
                · simp [gain, hs]
              | true =>
                have g := (g1 hs).2
                rw [hB.grid o (List.mem_of_getElem? ho) hy, hy] at g
                rw [g]
                simp [gain, ho, hy, hs]
            · apply hz
              · exact step_arr W S _ k (fun i' oi ht ho' _ => by
                  simp only [Op.target, Option.some.injEq] at ht
                  subst ht
                  rw [ho] at ho'
                  simp only [Option.some.injEq] at ho'
                  subst ho'
                  exact hy)
              · simp [gain, ho, hy]
        | _ => exact absurd ha (by simp [Adds])
      · apply hz
        · exact step_arr W S op k (fun _ _ _ _ h => absurd h ha)
        · cases op with
          | add i peaks => exact absurd trivial ha
          | _ => rfl
    have hl' : ((step W S op).2.arr k).length = ((step W S op).2.arr q).length := by
      rw [hk, hq, List.length_zipWith]; omega
    obtain ⟨r1, r2⟩ := ih (step W S op).2 (fun i peaks hm => hp i peaks (by simp [hm])) q hB' hl'
    refine ⟨by rw [← hq]; exact r1, ?_⟩
    show (run W (step W S op).2 ops).arr k = _
    rw [r2, hq, hk, zipWith_zipWith]
    congr 1
    funext x y
    rw [show gains W S (op :: ops) k = gain W S op k ++ gains W (step W S op).2 ops k from rfl, curve_append]

/-! ### Models and baselines -/

/-- No other cluster has the baseline object of cluster `j`. -/
def Own (S : Store K) (j : ℕ) (bl : Option ℕ) : Prop :=
  ∀ b, bl = some b → b < S.base.length ∧ ∀ (k : ℕ) (ok : Obj K), k ≠ j → S.obj[k]? = some ok → ok.baseline ≠ some b

/-- A call that is not on cluster `j` and does not hand its baseline object to another cluster: it is neither joined as the first cluster
nor is a cluster made with its baseline. -/
def Spares (j : ℕ) (bl : Option ℕ) (op : Op K) : Prop :=
  op.target ≠ some j ∧ (∀ k, op ≠ .join j k) ∧ ∀ b, bl = some b → ∀ m r y e s me f, op ≠ .make m (some b) r y e s me f

theorem own_step (W : World K) {S : Store K} {op : Op K} {j : ℕ} {bl : Option ℕ} (hO : Own S j bl) (hS : Spares j bl op) :
    Own (step W S op).2 j bl ∧ ∀ b, bl = some b → (step W S op).2.base[b]? = S.base[b]? := by
  refine ⟨fun b hb => ?_, fun b hb => ?_⟩
  · obtain ⟨h1, h2⟩ := hO b hb
    refine ⟨lt_of_lt_of_le h1 (step_base_length W S op), fun k ok hkj hk => ?_⟩
    rcases after_step W S op hk with ⟨h3, -⟩ | ⟨o1, ht, h3⟩ | ⟨ht, -, hobj, hbn⟩
    · exact h2 k ok hkj h3
    · obtain ⟨o', e1, -, -, -, e2, -⟩ := step_self W S op ht h3
      rw [hk] at e1
      simp only [Option.some.injEq] at e1
      subst e1
      rcases e2 with e2 | ⟨-, e2, -⟩
      · rw [e2]; exact h2 k o1 hkj h3
      · rw [e2]
        simp only [ne_eq, Option.some.injEq]
        omega
    · rcases hbn.origin with ⟨m, bl', r, y, e, s, me, f, e0, -, -, e1, -⟩ | ⟨_, oi, -, -, -, -, -, -, -, -, e⟩ | ⟨i, _, oi, e0, ho1, -, -, e⟩
      · rw [e1]
        intro hc
        exact hS.2.2 b hb m r y e s me f (by rw [e0, hc])
      · intro hc
        have := (e b hc).1
        omega
      · rw [e]
        have hij : i ≠ j := fun hc => hS.2.1 _ (by rw [e0, hc])
        exact h2 i oi hij ho1
  · obtain ⟨h1, h2⟩ := hO b hb
    refine step_base W S op h1 (fun i oi ht ho _ => ?_)
    have hij : i ≠ j := fun hc => hS.1 (by rw [ht, hc])
    exact h2 i oi hij ho

theorem value_of (c d : Cluster K) (h1 : d.model = c.model) (h2 : d.baseline = c.baseline) (r : List K) :
    ModelCluster.clusterValue d (some r) = ModelCluster.clusterValue c (some r) := by
  unfold ModelCluster.clusterValue baseValue peaksValue
  rw [h1, h2]
  cases c.baseline <;> rfl

/-- **C112.** What is called on other clusters does not change a cluster: if no other cluster has its baseline object, then after any series
of calls — fits with or without baseline, joins, additions, … — none of which is on the cluster or hands out its baseline, its attributes are what
they were and its value, anywhere, is what it was. -/
theorem c112_others (W : World K) (ops : List (Op K)) : ∀ (S : Store K) (j : ℕ) (o : Obj K), S.obj[j]? = some o → Own S j o.baseline →
    (∀ op ∈ ops, Spares j o.baseline op) →
    (run W S ops).obj[j]? = some o ∧ (load (run W S ops) o).baseline = (load S o).baseline ∧
      ∀ r, ModelCluster.clusterValue (load (run W S ops) o) (some r) = ModelCluster.clusterValue (load S o) (some r) := by
  induction ops with
  | nil => exact fun S j o ho _ _ => ⟨ho, rfl, fun _ => rfl⟩
  | cons op ops ih =>
    intro S j o ho hO hS
    obtain ⟨h1, h2⟩ := own_step W hO (hS op (by simp))
    have h3 := step_obj W S op (hS op (by simp)).1 ho
    obtain ⟨k1, k2, -⟩ := ih (step W S op).2 j o h3 h1 (fun op' hm => hS op' (by simp [hm]))
    have hb : (load (step W S op).2 o).baseline = (load S o).baseline := by
      show o.baseline.bind _ = o.baseline.bind _
      cases hob : o.baseline with
      | none => rfl
      | some b => exact h2 b hob
    have hb' : (load (run W S (op :: ops)) o).baseline = (load S o).baseline := k2.trans hb
    exact ⟨k1, hb', fun r => value_of (load S o) (load (run W S (op :: ops)) o) rfl hb' r⟩

/-- **C112.** A copy has the peaks, the slice, the arrays and the value of the original, and a baseline of its own. -/
theorem c112_copy (W : World K) (S : Store K) (hs : Sound S) (i : ℕ) (o c : Obj K) (ho : S.obj[i]? = some o)
    (hc : (step W S (.copy i)).2.obj = S.obj ++ [c]) :
    c.model = o.model ∧ c.slice = o.slice ∧ c.r = o.r ∧ c.y = o.y ∧ c.e = o.e ∧
    (∀ r, ModelCluster.clusterValue (load (step W S (.copy i)).2 c) (some r) = ModelCluster.clusterValue (load S o) (some r)) ∧
    Own (step W S (.copy i)).2 S.obj.length c.baseline := by
  have hb := born W S (.copy i) rfl hc
  rcases hb.origin with ⟨_, _, _, _, _, _, _, _, e0, -⟩ | ⟨i', oi, e0, ho1, e1, e2, e3, e4, e5, e6, e7⟩ | ⟨_, _, _, e0, -⟩
  · exact absurd e0 (by simp)
  · simp only [Op.copy.injEq] at e0
    subst e0
    rw [ho] at ho1
    simp only [Option.some.injEq] at ho1
    subst ho1
    refine ⟨e4, e5, e1, e2, e3, fun r => value_of _ _ e4 e6 r, fun b hbb => ⟨(e7 b hbb).2, fun k ok hk hok => ?_⟩⟩
    rw [hc] at hok
    have hlt : k < S.obj.length := by
      by_contra hcc
      rw [List.getElem?_eq_none (by simp; omega)] at hok
      simp at hok
    rw [List.getElem?_append_left hlt] at hok
    intro hcc
    have h1 := (hs ok (List.mem_of_getElem? hok)).2.2 b hcc
    have h2 := (e7 b hbb).1
    omega
  · exact absurd e0 (by simp)

/-- **C112.** What is done with a copy does not change the original, even if other clusters have the original's baseline object. -/
theorem c112_original (W : World K) (ops : List (Op K)) : ∀ (S : Store K) (i j : ℕ) (o c : Obj K), i ≠ j → S.obj[i]? = some o →
    S.obj[j]? = some c → (∀ b, o.baseline = some b → b < S.base.length ∧ c.baseline ≠ some b) → (∀ op ∈ ops, op.target = some j) →
    (run W S ops).obj[i]? = some o ∧ ∀ r, ModelCluster.clusterValue (load (run W S ops) o) (some r) = ModelCluster.clusterValue (load S o) (some r) := by
  induction ops with
  | nil => exact fun S i j o c _ ho _ _ _ => ⟨ho, fun _ => rfl⟩
  | cons op ops ih =>
    intro S i j o c hij ho hc hb hops
    have ht := hops op (by simp)
    have h3 := step_obj W S op (j := i) (by rw [ht]; simpa using fun e => hij e.symm) ho
    obtain ⟨c', e1, -, -, -, e2, -⟩ := step_self W S op ht hc
    have hbase : ∀ b, o.baseline = some b → (step W S op).2.base[b]? = S.base[b]? := by
      intro b hob
      refine step_base W S op (hb b hob).1 (fun k ok hk hok _ => ?_)
      rw [ht] at hk
      simp only [Option.some.injEq] at hk
      subst hk
      rw [hc] at hok
      simp only [Option.some.injEq] at hok
      subst hok
      exact (hb b hob).2
    obtain ⟨k1, k2⟩ := ih (step W S op).2 i j o c' hij h3 e1 (by
      intro b hob
      refine ⟨lt_of_lt_of_le (hb b hob).1 (step_base_length W S op), ?_⟩
      rcases e2 with e2 | ⟨-, e2, -⟩
      · rw [e2]; exact (hb b hob).2
      · rw [e2]
        have := (hb b hob).1
        simp only [ne_eq, Option.some.injEq]
        omega) (fun op' hm => hops op' (by simp [hm]))
    refine ⟨k1, fun r => (k2 r).trans (value_of (load S o) (load (step W S op).2 o) rfl ?_ r)⟩
    show o.baseline.bind _ = o.baseline.bind _
    cases hob : o.baseline with
    | none => rfl
    | some b => exact hbase b hob

end Verif.Parts.Shared
