import Verif.Units.Greedy
import Verif.Units.State

/-! # Lemmas for C104: the steps of `extract_single` -/

set_option linter.unusedSectionVars false

namespace Verif.Parts.Units

open Verif.Py Verif.PeakList Verif.Parts.ModelCluster Verif.Parts.Extract Verif.Extraction

variable {K : Type} [Field K] [LinearOrder K] [IsStrictOrderedRing K]

variable {u : Change K} {W W' : World K}

/-- What a search works on, in the new units. -/
def Change.job (u : Change K) (J : Job K) : Job K :=
  { J with x := u.xs J.x, y := u.ys J.y, dy := u.ys J.dy, bl := u.part J.bl, ip := u.parts J.ip, cres := u.a * J.cres }

/-- The neighbourhood of a border, in the new units. -/
def Change.hood (u : Change K) (h : Hood K) : Hood K := ⟨u.parts h.near, u.parts h.other, u.xs h.x, u.ys h.y, u.ys h.err⟩

theorem curves_of (h : Alike u W W') : Curves u W.val W'.val W.sc W'.sc := ⟨h.val, h.sc⟩

theorem valuebl_units (h : Alike u W W') (b : Option (Part K)) (x : K) : valuebl W' (b.map u.part) (u.a * x) = u.k * valuebl W b x := by
  cases b with
  | none => simp [valuebl]
  | some p => exact h.val p x

theorem excess_units (h : Alike u W W') (c : Cluster K) : excess W' (u.cluster c) = u.ys (excess W c) := by
  unfold excess
  have e : (u.cluster c).r.zip (u.cluster c).y = (c.r.zip c.y).map (fun p => (u.a * p.1, u.k * p.2)) := by
    show (c.r.map _).zip (c.y.map _) = _
    rw [List.zip_map]
    rfl
  rw [e]
  show List.zipWith _ _ (c.err.map (fun v => u.k * v)) = _
  refine zip_map2 ?_ _ _
  intro p e
  show u.k * p.2 - valuebl W' (c.baseline.map u.part) (u.a * p.1) - u.k * e = _
  rw [valuebl_units h]
  ring

theorem xs_length (l : List K) : (u.xs l).length = l.length := by simp [Change.xs]

theorem ys_length (l : List K) : (u.ys l).length = l.length := by simp [Change.ys]

theorem newCluster_units (hu : u.Sensible) (h : Alike u W W') (J : Job K) (m : List (Part K)) (bl : Option (Part K)) (r y err : List K)
    (s : Option Slice) :
    newCluster W' (u.job J) (u.parts m) (bl.map u.part) (u.xs r) (u.ys y) (u.ys err) s = (newCluster W J m bl r y err s).map u.cluster := by
  unfold newCluster
  simp only
  have e1 := excess_units h ⟨m, bl, r, y, err, 0, 0, 0, J.method, J.funcs, none, 0, false⟩
  have e2 := changeSlice_units hu (excess W ⟨m, bl, r, y, err, 0, 0, 0, J.method, J.funcs, none, 0, false⟩)
    ⟨m, bl, r, y, err, 0, 0, 0, J.method, J.funcs, none, 0, false⟩ (s.getD ⟨none, r.length⟩)
  rw [← e1] at e2
  rw [xs_length]
  have e3 : changeSlice (excess W' ⟨u.parts m, bl.map u.part, u.xs r, u.ys y, u.ys err, 0, 0, 0, (u.job J).method, (u.job J).funcs, none, 0, false⟩)
    ⟨u.parts m, bl.map u.part, u.xs r, u.ys y, u.ys err, 0, 0, 0, (u.job J).method, (u.job J).funcs, none, 0, false⟩ (s.getD ⟨none, r.length⟩) = _ := e2
  rw [e3]
  generalize changeSlice (K := K) _ _ _ = R
  obtain ⟨q, c⟩ := R
  cases q <;> rfl

theorem reslice_units (hu : u.Sensible) (h : Alike u W W') (c : Cluster K) (s : ℕ × ℕ) :
    reslice W' (u.cluster c) s = (reslice W c s).map u.cluster := by
  unfold reslice
  rw [excess_units h, changeSlice_units hu]
  generalize changeSlice (K := K) _ _ _ = R
  obtain ⟨q, c⟩ := R
  cases q <;> rfl

theorem copyOf_units (hu : u.Sensible) (h : Alike u W W') (c : Cluster K) : copyOf W' (u.cluster c) = (copyOf W c).map u.cluster := by
  unfold copyOf copy
  rw [excess_units h]
  have i1 : (u.cluster c).slice = c.slice := rfl
  rw [i1]
  cases c.slice with
  | none => rfl
  | some s =>
    have e : changeSlice (u.ys (excess W c)) { u.cluster c with slice := none, lastFit := 0, neverFit := false } s = _ :=
      changeSlice_units hu (excess W c) { c with slice := none, lastFit := 0, neverFit := false } s
    simp only
    rw [e]
    generalize changeSlice (K := K) _ _ _ = R
    obtain ⟨q, c⟩ := R
    cases q <;> rfl

theorem fitted_units (hu : u.Sensible) (h : Alike u W W') (o : Opts) (c : Cluster K) : fitted W' o (u.cluster c) = (fitted W o c).map u.cluster := by
  unfold fitted
  rw [fit_units hu (h.env c)]
  generalize ModelCluster.fit (K := K) _ _ _ = R
  obtain ⟨q, c, l⟩ := R
  cases q <;> rfl

theorem final_alike (h : Alike u W W') : Alike u (Extract.final W) (Extract.final W') := by
  refine ⟨fun c => ?_, h.prune, h.qual, h.pick, h.as, h.asY, h.val, h.sc, h.eqv, h.minpoints, h.covLsq⟩
  obtain ⟨a1, a2, a3, a4, a5, a6⟩ := h.env c
  exact ⟨a1, a2, h.covLsq c, a4, a5, a6⟩

theorem contingent_units (hu : u.Sensible) (h : Alike u W W') (mp : ℕ) (c : Cluster K) :
    contingent W' mp (u.cluster c) = (contingent W mp c).map u.cluster := by
  unfold contingent
  rw [contingentFit_units hu (h.env c)]
  generalize contingentFit (K := K) _ _ _ _ = R
  obtain ⟨q, c, l⟩ := R
  cases q <;> rfl

theorem reduced_units (hu : u.Sensible) (h : Alike u W W') (c : Cluster K) (x y : K) :
    reduced W' (u.cluster c) (u.a * x) (u.k * y) = (reduced W c x y).map u.cluster := by
  unfold reduced
  have i1 : valuebl W' (u.cluster c).baseline (u.a * x) = u.k * valuebl W c.baseline x := valuebl_units h _ _
  rw [i1, reduceTo_units hu (h.env c) (curves_of h)]
  generalize reduceTo (K := K) _ _ _ _ _ _ _ = R
  obtain ⟨q, c⟩ := R
  cases q <;> rfl

theorem augmented_units (hu : u.Sensible) (h : Alike u W W') (c : Cluster K) (s : List (Part K)) :
    augmented W' (u.cluster c) (u.parts s) = (augmented W c s).map u.cluster := by
  unfold augmented
  rw [augment_units hu (h.env c) h.pick]
  generalize augment (K := K) _ _ _ _ = R
  obtain ⟨q, c⟩ := R
  cases q <;> rfl

theorem withPeaks_units (hu : u.Sensible) (h : Alike u W W') (c : Cluster K) (o n : List (Part K)) :
    withPeaks W' (u.cluster c) (u.parts o) (u.parts n) = (withPeaks W c o n).map u.cluster := by
  unfold withPeaks
  rw [replacepeaks_parts hu h.as]
  generalize replacepeaks (K := K) _ _ _ _ _ = R
  obtain ⟨q, m⟩ := R
  cases q <;> rfl

theorem pruned_units (hu : u.Sensible) (h : Alike u W W') (J : Job K) (c : Cluster K) :
    pruned W' (u.job J) (u.cluster c) = (pruned W J c).map u.cluster := by
  unfold pruned
  have hm : (u.cluster c).model = [] ↔ c.model = [] := parts_nil
  have i1 : (u.cluster c).slice = c.slice := rfl
  by_cases hz : c.model = []
  · rw [if_pos hz, if_pos (hm.2 hz)]; rfl
  rw [if_neg hz, if_neg (fun h => hz (hm.1 h)), i1]
  cases c.slice with
  | none => rfl
  | some s =>
    simp only
    have e1 : s.get (u.cluster c).r = u.xs (s.get c.r) := get_xs _ _
    have e2 : s.get (u.cluster c).y = u.ys (s.get c.y) := get_ys _ _
    have e3 : s.get (u.cluster c).err = u.ys (s.get c.err) := get_ys _ _
    have e4 : List.zipWith (fun a b => b - valuebl W' (u.cluster c).baseline a) (u.xs (s.get c.r)) (u.ys (s.get c.y)) =
        u.ys (List.zipWith (fun a b => b - valuebl W c.baseline a) (s.get c.r) (s.get c.y)) := by
      refine zip_map2 ?_ _ _
      intro x y
      show u.k * y - valuebl W' (c.baseline.map u.part) (u.a * x) = _
      rw [valuebl_units h]
      ring
    rw [e1, e2, e3, e4]
    have e5 : newCluster W' (u.job J) [] none (u.xs (s.get c.r)) _ (u.ys (s.get c.err)) none = _ :=
      newCluster_units hu h J [] none (s.get c.r) (List.zipWith (fun a b => b - valuebl W c.baseline a) (s.get c.r) (s.get c.y)) (s.get c.err) none
    rw [e5]
    cases newCluster W J [] none (s.get c.r) (List.zipWith (fun a b => b - valuebl W c.baseline a) (s.get c.r) (s.get c.y)) (s.get c.err) none with
    | error e => rfl
    | ok mc =>
      simp only [Except.map]
      have e6 : prune (W'.pruneEnv (u.cluster c)) W'.pick (u.cluster mc) (u.cluster c).model = _ :=
        prune_units hu ⟨h.prune c, h.qual c⟩ h.pick mc c.model
      rw [e6]
      generalize prune (K := K) _ _ _ _ = R
      obtain ⟨q, m⟩ := R
      cases q <;> rfl

/-! ### The neighbourhood of a border -/

theorem pivot_xs (hu : u.Sensible) (l : List K) (b : K) : pivot (u.xs l) (u.a * b) = pivot l b := takeWhile_lt_map hu.a l b

theorem leftData_xs (hu : u.Sensible) (x ps : List K) (lo p : ℕ) : leftData (u.xs x) (u.xs ps) lo p = leftData x ps lo p := by
  unfold leftData
  split
  · rfl
  · simp only [Change.xs, List.getElem?_map]
    cases ps[p - 2]? with
    | none => rfl
    | some v =>
      simp only [Option.map_some]
      rw [takeWhile_lt_map hu.a]

theorem rightData_xs (hu : u.Sensible) (x ps : List K) (hi n p : ℕ) : rightData (u.xs x) (u.xs ps) hi n p = rightData x ps hi n p := by
  unfold rightData
  split
  · rfl
  · rw [xs_length]
    simp only [Change.xs, List.getElem?_map]
    cases ps[p + 1]? with
    | none => rfl
    | some v =>
      simp only [Option.map_some]
      rw [takeWhile_lt_map hu.a]

theorem minus_units (h : Alike u W W') (m : List (Part K)) (x y : List K) :
    List.zipWith (fun a b => b - valueAt W'.val (u.parts m) a) (u.xs x) (u.ys y) =
      u.ys (List.zipWith (fun a b => b - valueAt W.val m a) x y) := by
  refine zip_map2 ?_ _ _
  intro a b
  rw [valueAt_parts h.val]
  ring

theorem hood_units (hu : u.Sensible) (h : Alike u W W') (x y dy : List K) (c : Cluster K) (b : K) :
    hood W' (u.xs x) (u.ys y) (u.ys dy) (u.cluster c) (u.a * b) = (hood W x y dy c b).map u.hood := by
  unfold hood
  have i1 : (u.cluster c).slice = c.slice := rfl
  rw [i1]
  cases c.slice with
  | none => rfl
  | some s =>
    have e1 : (u.cluster c).model.map pos = u.xs (c.model.map pos) := positions hu _
    simp only
    rw [e1, pivot_xs hu, xs_length, xs_length, leftData_xs hu, rightData_xs hu]
    have e2 : ∀ is : List ℕ, is.filterMap (fun i => (u.cluster c).model[i]?) = u.parts (is.filterMap (fun i => c.model[i]?)) := filterMap_parts _ _
    rw [e2, e2, getSlice_xs, getSlice_ys, getSlice_ys, minus_units h]
    rfl

/-! ### Recursion -/

/-- The recursive searches are alike. -/
def DeeperAlike (u : Change K) : Deeper K → Deeper K → Prop
  | none, none => True
  | some f, some f' => ∀ r y e, f' (u.xs r) (u.ys y) (u.ys e) = (f r y e).map u.cluster
  | _, _ => False

theorem residual_units (h : Alike u W W') (c : Cluster K) : Extract.residual W' (u.cluster c) = u.ys (Extract.residual W c) :=
  minus_units h c.model c.r c.y

theorem deepen_units (hu : u.Sensible) (h : Alike u W W') (J : Job K) {rec rec' : Deeper K} (hr : DeeperAlike u rec rec') (c : Cluster K) (must : Bool) :
    deepen W' (u.job J) rec' (u.cluster c) must = (deepen W J rec c must).map u.cluster := by
  unfold deepen
  rw [residual_units h]
  have e1 : newCluster W' (u.job J) [] none (u.cluster c).r (u.ys (Extract.residual W c)) (u.cluster c).err none = _ :=
    newCluster_units hu h J [] none c.r (Extract.residual W c) c.err none
  rw [e1]
  cases newCluster W J [] none c.r (Extract.residual W c) c.err none with
  | error e => rfl
  | ok chk =>
    simp only [Except.map]
    have e2 : (W'.env (u.cluster chk)).growth [] none = (W.env chk).growth [] none := (h.env chk).growth [] none
    rw [e2]
    split
    · match rec, rec', hr with
      | none, none, _ => rfl
      | some f, some f', hr =>
        have e3 : f' (u.cluster c).r (u.ys (Extract.residual W c)) (u.cluster c).err = (f c.r (Extract.residual W c) c.err).map u.cluster := hr _ _ _
        simp only
        rw [e3]
        cases f c.r (Extract.residual W c) c.err with
        | error e => rfl
        | ok found => exact augmented_units hu h c found.model
    · rfl

theorem item_map {α β : Type} (f : α → β) (l : List α) (i : ℕ) : item (l.map f) i = (item l i).map f := by
  unfold item
  rw [List.getElem?_map]
  cases l[i]? <;> rfl

theorem boundary_units (hu : u.Sensible) (h : Alike u W W') (J : Job K) {rec rec' : Deeper K} (hr : DeeperAlike u rec rec') (y : List K) (c : Cluster K)
    (j : ℕ) : boundary W' (u.job J) rec' (u.ys y) (u.cluster c) j = (boundary W J rec y c j).map u.cluster := by
  unfold boundary
  refine map_bind (copyOf_units hu h c) fun full => map_bind (fitted_units hu h _ full) fun full => ?_
  have e1 : (match (u.job J).x[j]? with | some b => .ok b | none => .error .index : Res K) =
      (match J.x[j]? with | some b => .ok b | none => .error .index : Res K).map (fun v => u.a * v) := by
    simp only [Change.job, Change.xs, List.getElem?_map]
    cases J.x[j]? <;> rfl
  refine map_bind e1 fun b => map_bind (hood_units hu h J.x y J.dy full b) fun hd => ?_
  have e2 : newCluster W' (u.job J) (u.hood hd).near (some (u.job J).bl) (u.hood hd).x (u.hood hd).y (u.hood hd).err (some ⟨none, (u.hood hd).x.length⟩) =
      (newCluster W J hd.near (some J.bl) hd.x hd.y hd.err (some ⟨none, hd.x.length⟩)).map u.cluster := by
    have : (u.hood hd).x.length = hd.x.length := xs_length _
    rw [this]
    exact newCluster_units hu h J hd.near (some J.bl) hd.x hd.y hd.err _
  refine map_bind e2 fun adj => ?_
  have e3 : (u.hood hd).near.length = hd.near.length := parts_length _
  rw [e3]
  exact map_bind (deepen_units hu h J hr adj _) fun adj => map_bind (withPeaks_units hu h full hd.other adj.model) fun full => fitted_units hu h _ full

theorem variant1_units (hu : u.Sensible) (h : Alike u W W') (J : Job K) {rec rec' : Deeper K} (hr : DeeperAlike u rec rec') (hd : Hood K) (bx by_ : K) :
    variant1 W' (u.job J) rec' (u.hood hd) (u.a * bx) (u.k * by_) = (variant1 W J rec hd bx by_).map u.cluster := by
  unfold variant1
  have e2 : newCluster W' (u.job J) (u.hood hd).near (some (u.job J).bl) (u.hood hd).x (u.hood hd).y (u.hood hd).err (some ⟨none, (u.hood hd).x.length⟩) =
      (newCluster W J hd.near (some J.bl) hd.x hd.y hd.err (some ⟨none, hd.x.length⟩)).map u.cluster := by
    have : (u.hood hd).x.length = hd.x.length := xs_length _
    rw [this]
    exact newCluster_units hu h J hd.near (some J.bl) hd.x hd.y hd.err _
  refine map_bind e2 fun a => ?_
  have e3 : (u.hood hd).near.length = hd.near.length := parts_length _
  rw [e3]
  split
  · exact map_bind (reduced_units hu h a bx by_) fun a => deepen_units hu h J hr a true
  · rfl

theorem variant2_units (hu : u.Sensible) (h : Alike u W W') (J : Job K) {rec rec' : Deeper K} (hr : DeeperAlike u rec rec') (hd : Hood K) :
    variant2 W' (u.job J) rec' (u.hood hd) = (variant2 W J rec hd).map u.cluster := by
  unfold variant2
  have e2 : newCluster W' (u.job J) (u.hood hd).near (some (u.job J).bl) (u.hood hd).x (u.hood hd).y (u.hood hd).err (some ⟨none, (u.hood hd).x.length⟩) =
      (newCluster W J hd.near (some J.bl) hd.x hd.y hd.err (some ⟨none, hd.x.length⟩)).map u.cluster := by
    have : (u.hood hd).x.length = hd.x.length := xs_length _
    rw [this]
    exact newCluster_units hu h J hd.near (some J.bl) hd.x hd.y hd.err _
  refine map_bind e2 fun a => map_bind (fitted_units hu h _ a) fun a => ?_
  have e3 : (u.hood hd).near.length = hd.near.length := parts_length _
  rw [e3]
  exact deepen_units hu h J hr a _

theorem better_units (h : Alike u W W') (a1 a2 : Cluster K) : better W' (u.cluster a1) (u.cluster a2) = (better W a1 a2).map u.cluster := by
  unfold better
  have e1 : (W'.env (u.cluster a1)).quality (u.cluster a1).model (u.cluster a1).baseline = (W.env a1).quality a1.model a1.baseline := (h.env a1).quality _ _
  have e2 : (W'.env (u.cluster a2)).quality (u.cluster a2).model (u.cluster a2).baseline = (W.env a2).quality a2.model a2.baseline := (h.env a2).quality _ _
  rw [e1, e2]
  cases Evaluator.gt ((W.env a1).quality a1.model a1.baseline) ((W.env a2).quality a2.model a2.baseline) with
  | error e => rfl
  | ok b => cases b <;> rfl

theorem joined_units (hu : u.Sensible) (h : Alike u W W') (J : Job K) {rec rec' : Deeper K} (hr : DeeperAlike u rec rec') (y : List K) (cl cr : ℕ × ℕ)
    (m1 m2 : Cluster K) : joined W' (u.job J) rec' (u.ys y) cl cr (u.cluster m1) (u.cluster m2) = (joined W J rec y cl cr m1 m2).map u.cluster := by
  unfold joined
  rw [excess_units h]
  refine map_bind (joinAdjacent_units hu (curves_of h) h.as h.eqv _ m1 m2) fun new => ?_
  refine map_bind (item_map (fun v => u.a * v) J.x cl.2) fun xl => map_bind (item_map (fun v => u.a * v) J.x cr.1) fun xr => ?_
  refine map_bind (item_map (fun v => u.k * v) y cl.2) fun yl => map_bind (item_map (fun v => u.k * v) y cr.1) fun yr => ?_
  have e1 : (u.a * xl + u.a * xr) / 2 = u.a * ((xl + xr) / 2) := by ring
  have e2 : (u.k * yl + u.k * yr) / 2 = u.k * ((yl + yr) / 2) := by ring
  rw [e1, e2]
  refine map_bind (hood_units hu h J.x y J.dy new _) fun hd => ?_
  refine map_bind (variant1_units hu h J hr hd _ _) fun a1 => map_bind (variant2_units hu h J hr hd) fun a2 => ?_
  refine map_bind (copyOf_units hu h { new with model := hd.other }) fun _ => map_bind (better_units h a1 a2) fun best => ?_
  exact map_bind (withPeaks_units hu h new hd.other best.model) fun new => fitted_units hu h _ new

/-- Clusters in the new units. -/
def Change.clusters (u : Change K) (ms : List (Cluster K)) : List (Cluster K) := ms.map u.cluster

theorem set_erase (ms : List (Cluster K)) (i j : ℕ) (c : Cluster K) :
    ((u.clusters ms).set i (u.cluster c)).eraseIdx j = u.clusters ((ms.set i c).eraseIdx j) := by
  unfold Change.clusters
  rw [← List.map_set, map_eraseIdx]

theorem joinLoop_units (hu : u.Sensible) (h : Alike u W W') (J : Job K) {rec rec' : Deeper K} (hr : DeeperAlike u rec rec') (y : List K)
    (rows : List (ℕ × ℕ)) : ∀ (is : List ℕ) (ms : List (Cluster K)),
    joinLoop W' (u.job J) rec' (u.ys y) rows is (u.clusters ms) = (joinLoop W J rec y rows is ms).map u.clusters
  | [], ms => rfl
  | idx :: is, ms => by
    unfold joinLoop
    refine map_bind (item_map u.cluster ms (idx - 1)) fun m1 => map_bind (item_map u.cluster ms idx) fun m2 => ?_
    refine map_bind (joined_units hu h J hr y _ _ m1 m2) fun new => ?_
    rw [set_erase]
    exact joinLoop_units hu h J hr y rows is _

/-! ### The main loop -/

theorem atIndex_units {f f' : Cluster K → Res (Cluster K)} (hf : ∀ c, f' (u.cluster c) = (f c).map u.cluster) (ms : List (Cluster K)) (i : ℕ) :
    atIndex (u.clusters ms) i f' = (atIndex ms i f).map u.clusters := by
  unfold atIndex Change.clusters
  rw [List.getElem?_map]
  cases ms[i]? with
  | none => rfl
  | some c =>
    simp only [Option.map_some]
    rw [hf]
    cases f c with
    | error e => rfl
    | ok c' => simp [Except.map, List.map_set]

theorem fitAll_units (hu : u.Sensible) (h : Alike u W W') : ∀ (is : List ℕ) (ms : List (Cluster K)),
    fitAll W' is (u.clusters ms) = (fitAll W is ms).map u.clusters
  | [], ms => rfl
  | a :: is, ms => by
    unfold fitAll
    rw [atIndex_units (fitted_units hu h _)]
    cases atIndex ms a (fitted W { justify := true }) with
    | error e => rfl
    | ok ms' => exact fitAll_units hu h is ms'

theorem update_units (hu : u.Sensible) (h : Alike u W W') (J : Job K) (y : List K) (s : Cluster.State K) (last : ℕ) (ms : List (Cluster K)) :
    update W' (u.job J) (u.ys y) (u.state s) last (u.clusters ms) = (update W J y s last ms).map u.clusters := by
  unfold update
  have e1 : (u.clusters ms).length = ms.length := List.length_map _
  have e2 : (u.state s).clusters = s.clusters := rfl
  rw [e1, e2, cut_state]
  split
  · have e3 : newCluster W' (u.job J) [] (some (u.job J).bl) (u.job J).x (u.ys y) (u.job J).dy (some ⟨some (Cluster.cut s last).1, (Cluster.cut s last).2⟩) = _ :=
      newCluster_units hu h J [] (some J.bl) J.x y J.dy (some ⟨some (Cluster.cut s last).1, (Cluster.cut s last).2⟩)
    rw [e3]
    cases newCluster W J [] (some J.bl) J.x y J.dy (some ⟨some (Cluster.cut s last).1, (Cluster.cut s last).2⟩) with
    | error e => rfl
    | ok c =>
      show (Except.ok ((ms.map u.cluster).insertIdx last (u.cluster c)) : Res (List (Cluster K))) = Except.ok ((ms.insertIdx last c).map u.cluster)
      rw [List.map_insertIdx]
  · exact atIndex_units (fun c => reslice_units hu h c _) ms last

theorem atBoundary_units (hu : u.Sensible) (h : Alike u W W') (J : Job K) {rec rec' : Deeper K} (hr : DeeperAlike u rec rec') (y : List K)
    (s : Cluster.State K) (last : ℕ) (ms : List (Cluster K)) :
    atBoundary W' (u.job J) rec' (u.ys y) (u.state s) last (u.clusters ms) = (atBoundary W J rec y s last ms).map u.clusters := by
  unfold atBoundary
  have e1 : (u.job J).x.length = J.x.length := xs_length _
  have e2 : (u.state s).lastpoint = s.lastpoint := rfl
  rw [e1, e2]
  split
  · exact atIndex_units (fun c => boundary_units hu h J hr y c last) ms last
  · rfl

theorem iteration_units (hu : u.Sensible) (h : Alike u W W') (J : Job K) {rec rec' : Deeper K} (hr : DeeperAlike u rec rec') (y : List K) (mp : ℕ)
    (s : Cluster.State K) (ms : List (Cluster K)) :
    iteration W' (u.job J) rec' (u.ys y) mp (u.state s) (u.clusters ms) =
      (iteration W J rec y mp s ms).map (fun r => (u.state r.1, u.clusters r.2)) := by
  unfold iteration
  have e0 : (u.state s).lastcluster = s.lastcluster := rfl
  have e1 : (u.state s).clusters = s.clusters := rfl
  simp only
  rw [e0, e1, findAdjacent_state]
  refine map_bind (update_units hu h J y s _ ms) fun ms => ?_
  refine map_bind (F := id) (by cases Cluster.findAdjacent s <;> rfl) fun adj => ?_
  have e2 : (u.clusters ms).length = ms.length := List.length_map _
  rw [e2]
  simp only [id]
  split
  · rfl
  split
  · rfl
  refine map_bind (fitAll_units hu h _ ms) fun ms => map_bind (atIndex_units (contingent_units hu h mp) ms _) fun ms => ?_
  refine map_bind (atBoundary_units hu h J hr y s _ ms) fun ms => map_bind (joinLoop_units hu h J hr y _ _ ms) fun ms => ?_
  split
  · rw [combine_state]
    generalize Cluster.combine s [adj.flatten] = R
    obtain ⟨o, s'⟩ := R
    cases o <;> rfl
  · rfl

theorem mainLoop_units (hu : u.Sensible) (h : Alike u W W') (J : Job K) {rec rec' : Deeper K} (hr : DeeperAlike u rec rec') (y : List K) (mp : ℕ) :
    ∀ (n : ℕ) (s : Cluster.State K) (ms : List (Cluster K)),
    mainLoop W' (u.job J) rec' (u.ys y) mp n (u.state s) (u.clusters ms) = (mainLoop W J rec y mp n s ms).map u.clusters
  | 0, s, ms => rfl
  | n + 1, s, ms => by
    unfold mainLoop
    rw [next_state hu.a]
    generalize Cluster.next s = R
    obtain ⟨o, s'⟩ := R
    cases o <;> try rfl
    simp only
    rw [iteration_units hu h J hr]
    cases iteration W J rec y mp s' ms with
    | error e => rfl
    | ok r => exact mainLoop_units hu h J hr y mp n r.1 r.2

theorem addexternal_units (hu : u.Sensible) (h : Alike u W W') (c : Cluster K) (ip : List (Part K)) :
    addexternal W' (u.cluster c) (u.parts ip) = (addexternal W c ip).map u.cluster := by
  unfold addexternal
  have e1 : withPeaks W' (u.cluster c) (u.cluster c).model (u.parts ip) = _ := withPeaks_units hu h c c.model ip
  rw [e1]
  cases withPeaks W c c.model ip with
  | error e => rfl
  | ok c' =>
    have e2 : List.zipWith (fun a b => b + valueAt W'.val (u.parts ip) a) (u.cluster c').r (u.cluster c').y =
        u.ys (List.zipWith (fun a b => b + valueAt W.val ip a) c'.r c'.y) := by
      refine zip_map2 ?_ _ _
      intro a b
      rw [valueAt_parts h.val]
      ring
    simp only [Except.map]
    rw [e2]
    rfl

theorem finish_units (hu : u.Sensible) (h : Alike u W W') (J : Job K) (top : Bool) (c : Cluster K) :
    finish W' (u.job J) top (u.cluster c) = (finish W J top c).map u.cluster := by
  unfold finish
  refine map_bind (addexternal_units hu h c J.ip) fun c => map_bind (pruned_units hu h J c) fun c => ?_
  cases top with
  | true => exact fitted_units hu (final_alike h) _ c
  | false => rfl

theorem searchN_units (hu : u.Sensible) (h : Alike u W W') (J : Job K) {rec rec' : Deeper K} (hr : DeeperAlike u rec rec') (top : Bool) (bound : ℕ) :
    searchN W' (u.job J) rec' top bound = (searchN W J rec top bound).map u.cluster := by
  unfold searchN
  simp only
  have e1 : List.zipWith (fun a b => b - W'.val (u.job J).bl a - valueAt W'.val (u.job J).ip a) (u.job J).x (u.job J).y =
      u.ys (List.zipWith (fun a b => b - W.val J.bl a - valueAt W.val J.ip a) J.x J.y) := by
    refine zip_map2 ?_ _ _
    intro a b
    show u.k * b - W'.val (u.part J.bl) (u.a * a) - valueAt W'.val (u.parts J.ip) (u.a * a) = _
    rw [valueAt_parts h.val, h.val]
    ring
  have e2 : List.zipWith (fun a b => b - valueAt W'.val (u.job J).ip a) (u.job J).x (u.job J).y =
      u.ys (List.zipWith (fun a b => b - valueAt W.val J.ip a) J.x J.y) := minus_units h J.ip J.x J.y
  rw [e1, e2, h.asY]
  have e3 : (match Cluster.mk (u.job J).x (u.ys (List.zipWith (fun a b => b - W.val J.bl a - valueAt W.val J.ip a) J.x J.y)) (u.job J).cres
      (W.as (List.zipWith (fun a b => b - W.val J.bl a - valueAt W.val J.ip a) J.x J.y)) with
      | .error o => .error (errOf o) | .ok s => .ok s : Res (Cluster.State K)) =
      (match Cluster.mk J.x (List.zipWith (fun a b => b - W.val J.bl a - valueAt W.val J.ip a) J.x J.y) J.cres
      (W.as (List.zipWith (fun a b => b - W.val J.bl a - valueAt W.val J.ip a) J.x J.y)) with
      | .error o => .error (errOf o) | .ok s => .ok s : Res (Cluster.State K)).map u.state := by
    have : Cluster.mk (u.job J).x (u.ys (List.zipWith (fun a b => b - W.val J.bl a - valueAt W.val J.ip a) J.x J.y)) (u.job J).cres
      (W.as (List.zipWith (fun a b => b - W.val J.bl a - valueAt W.val J.ip a) J.x J.y)) = _ := mk_state hu J.x _ J.cres _
    rw [this]
    cases Cluster.mk J.x (List.zipWith (fun a b => b - W.val J.bl a - valueAt W.val J.ip a) J.x J.y) J.cres
      (W.as (List.zipWith (fun a b => b - W.val J.bl a - valueAt W.val J.ip a) J.x J.y)) <;> rfl
  refine map_bind e3 fun dc => ?_
  refine map_bind (newCluster_units hu h J [] (some J.bl) J.x _ J.dy (some ⟨some (Cluster.cut dc 0).1, (Cluster.cut dc 0).2⟩)) fun first => ?_
  have e4 : maxOf ((u.job J).funcs.map (W'.minpoints (u.job J).method)) = (maxOf (J.funcs.map (W.minpoints J.method))).map id := by
    have : (u.job J).funcs.map (W'.minpoints (u.job J).method) = J.funcs.map (W.minpoints J.method) := List.map_congr_left (fun f _ => h.minpoints _ _)
    rw [this]
    cases maxOf (J.funcs.map (W.minpoints J.method)) <;> rfl
  refine map_bind e4 fun mp => map_bind (mainLoop_units hu h J hr _ mp bound dc [first]) fun ms => ?_
  exact map_bind (item_map u.cluster ms 0) fun c => finish_units hu h J top c

theorem search_units (hu : u.Sensible) (h : Alike u W W') (J : Job K) {rec rec' : Deeper K} (hr : DeeperAlike u rec rec') (top : Bool) :
    search W' (u.job J) rec' top = (search W J rec top).map u.cluster := by
  unfold search
  have : (u.job J).x.length = J.x.length := xs_length _
  rw [this]
  exact searchN_units hu h J hr top _

end Verif.Parts.Units
