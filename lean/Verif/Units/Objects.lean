import Verif.Units.Vars
import Verif.Extract.EstimateModel

/-! # Lemmas for C104: `estimate_peak`, `add_peaks`, `fit_single` in other units -/

set_option linter.unusedSectionVars false

namespace Verif.Parts.Units

open Verif.Py Verif.PeakList Verif.Parts.ModelCluster Verif.Parts.Extract Verif.Extraction

variable {K : Type} [Field K] [LinearOrder K] [IsStrictOrderedRing K]

variable {u : Change K} {W W' : World K} {D D' : Defaults K}

/-- A `PeakExtraction` in the new units. -/
def Change.obj (u : Change K) (o : Obj K) : Obj K := ⟨u.vars o.vars, u.heap o.heap, o.extracted.map u.cluster⟩

/-- Three sequences in the new units. -/
def Change.three (u : Change K) (d : List K × List K × List K) : List K × List K × List K := (u.xs d.1, u.ys d.2.1, u.ys d.2.2)

theorem clusterValue_units (h : Alike u W W') (c : Cluster K) (x : K) : Extract.clusterValue W' (u.cluster c) (u.a * x) = u.k * Extract.clusterValue W c x := by
  unfold Extract.clusterValue
  have e1 : valuebl W' (u.cluster c).baseline (u.a * x) = u.k * valuebl W c.baseline x := valuebl_units h _ _
  have e2 : valueAt W'.val (u.cluster c).model (u.a * x) = u.k * valueAt W.val c.model x := valueAt_parts h.val _ _
  rw [e1, e2, mul_add]

theorem grid_units (hu : u.Sensible) (h : Alike u W W') (o : Obj K) : grid W' (u.obj o) = (grid W o).map u.three := by
  obtain ⟨vars, heap, ex⟩ := o
  unfold grid
  cases ex with
  | some c =>
    obtain ⟨m, bl, r, y, err, a1, a2, a3, me, fs, sl, lf, nf⟩ := c
    cases sl with
    | none => rfl
    | some s =>
      have e1 : s.get (u.xs r) = u.xs (s.get r) := get_xs _ _
      have e2 : s.get (u.ys y) = u.ys (s.get y) := get_ys _ _
      have e3 : s.get (u.ys err) = u.ys (s.get err) := get_ys _ _
      have e4 : List.zipWith (fun a b => b - Extract.clusterValue W' (u.cluster ⟨m, bl, r, y, err, a1, a2, a3, me, fs, some s, lf, nf⟩) a) (u.xs (s.get r)) (u.ys (s.get y)) =
          u.ys (List.zipWith (fun a b => b - Extract.clusterValue W ⟨m, bl, r, y, err, a1, a2, a3, me, fs, some s, lf, nf⟩ a) (s.get r) (s.get y)) := by
        refine zip_map2 ?_ _ _
        intro a b
        rw [clusterValue_units h]
        ring
      show Except.ok (s.get (u.xs r), List.zipWith _ (s.get (u.xs r)) (s.get (u.ys y)), s.get (u.ys err)) = _
      rw [e1, e2, e3, e4]
      rfl
  | none =>
    have e0 : jobOf (u.obj ⟨vars, heap, none⟩).heap (u.obj ⟨vars, heap, none⟩).vars = _ := jobOf_units hu heap vars
    simp only [Change.obj, Option.map_none] at e0 ⊢
    rw [e0]
    cases jobOf heap vars with
    | error e => rfl
    | ok J =>
      have e1 : List.zipWith (fun a b => b - W'.val (u.job J).bl a - valueAt W'.val (u.job J).ip a) (u.job J).x (u.job J).y =
          u.ys (List.zipWith (fun a b => b - W.val J.bl a - valueAt W.val J.ip a) J.x J.y) := by
        refine zip_map2 ?_ _ _
        intro a b
        show u.k * b - W'.val (u.part J.bl) (u.a * a) - valueAt W'.val (u.parts J.ip) (u.a * a) = _
        rw [valueAt_parts h.val, h.val]
        ring
      simp only [Except.map]
      rw [e1]
      rfl

theorem clusterAll_units (hu : u.Sensible) : ∀ (n : ℕ) (s : Cluster.State K), clusterAll n (u.state s) = (clusterAll n s).map u.state
  | 0, s => by
    unfold clusterAll
    rw [next_state hu.a]
    generalize Cluster.next s = R
    obtain ⟨o, s'⟩ := R
    cases o <;> rfl
  | n + 1, s => by
    unfold clusterAll
    rw [next_state hu.a]
    generalize Cluster.next s = R
    obtain ⟨o, s'⟩ := R
    cases o <;> try rfl
    exact clusterAll_units hu n s'

theorem searchsorted_xs (ha : 0 < u.a) (l : List K) (v : K) : Cluster.searchsorted (u.xs l) (u.a * v) = Cluster.searchsorted l v := by
  unfold Cluster.searchsorted Change.xs
  exact takeWhile_lt_map ha l v

theorem findNearest2_units (hu : u.Sensible) (s : Cluster.State K) (v : K) :
    Cluster.findNearest2 (u.state s) (u.a * v) = (Cluster.findNearest2 s v).map (Option.map (fun r => (r.1, u.a * r.2))) := by
  unfold Cluster.findNearest2
  have e0 : (u.state s).status = s.status := rfl
  have e1 : (u.state s).x = u.xs s.x := rfl
  have e2 : (u.state s).clusters = s.clusters := rfl
  have e3 : ∀ i, Cluster.findNearest (u.state s) i = (Cluster.findNearest s i).map (Option.map (fun r => (r.1, u.a * r.2))) := by
    intro i
    unfold Cluster.findNearest
    rw [e0, e1, e2, nearest_xs hu.a]
    split <;> rfl
  rw [e0, e1, e2]
  simp only [e3, xs_length, searchsorted_xs hu.a, getD_xs, ← mul_sub, mul_lt_mul_iff_right₀ hu.a]
  split
  · rfl
  split
  · split
    · split <;> rfl
    · rfl
  · split
    · rfl
    · split <;> rfl

theorem nearest2_units (hu : u.Sensible) (s : Cluster.State K) (v : K) : Extract.nearest (u.state s) (u.a * v) = Extract.nearest s v := by
  unfold Extract.nearest
  rw [findNearest2_units hu]
  cases Cluster.findNearest2 s v with
  | error e => rfl
  | ok r => cases r <;> rfl

theorem nearData_units (hu : u.Sensible) (h : Alike u W W') (cres : K) (x y e : List K) (v : K) :
    nearData W' (u.a * cres) (u.xs x) (u.ys y) (u.ys e) (u.a * v) = (nearData W cres x y e v).map u.three := by
  unfold nearData
  have e1 : (u.xs x).head? = x.head?.map (fun v => u.a * v) := by cases x <;> rfl
  have e2 : (u.xs x).getLast? = x.getLast?.map (fun v => u.a * v) := by simp [Change.xs]
  rw [e1, e2]
  cases x.head? with
  | none => rfl
  | some x0 =>
    cases x.getLast? with
    | none => rfl
    | some xe =>
      simp only [Option.map_some, mul_lt_mul_iff_right₀ hu.a, h.asY, mk_state hu, xs_length]
      split
      · rfl
      cases Cluster.mk x y cres (W.as y) with
      | error o => rfl
      | ok dc =>
        simp only [Except.map]
        rw [clusterAll_units hu]
        cases clusterAll x.length dc with
        | error o => rfl
        | ok dc =>
          simp only [Except.map]
          rw [nearest2_units hu]
          cases Extract.nearest dc v with
          | error o => rfl
          | ok c =>
            simp only [cut_state]
            rw [getSlice_xs, getSlice_ys, getSlice_ys]
            rfl

theorem nearFit_units (hu : u.Sensible) (h : Alike u W W') (o : Obj K) (v : K) : nearFit W' (u.obj o) (u.a * v) = (nearFit W o v).map u.parts := by
  unfold nearFit
  rw [grid_units hu h]
  have e1 : (u.obj o).vars.cres = o.vars.cres.map (fun v => u.a * v) := rfl
  have e2 : (u.obj o).vars.errorMethod = o.vars.errorMethod := rfl
  have e3 : (u.obj o).vars.pf = o.vars.pf := rfl
  rw [e1, e2, e3]
  cases o.vars.cres with
  | none => rfl
  | some cres =>
  cases o.vars.errorMethod with
  | none => rfl
  | some em =>
  cases o.vars.pf with
  | none => rfl
  | some pf =>
    simp only [Option.map_some]
    cases grid W o with
    | error e => rfl
    | ok d =>
      obtain ⟨x1, y1, dy⟩ := d
      simp only [Except.map, Change.three]
      rw [nearData_units hu h]
      cases nearData W cres x1 y1 dy v with
      | error e => rfl
      | ok d =>
        obtain ⟨xs, ys, es⟩ := d
        simp only [Except.map, Change.three]
        have e4 : newCluster W' ⟨u.xs xs, u.ys ys, u.ys es, (u.obj o).heap.base 0, [], u.a * cres, em, (u.obj o).heap.funcs pf⟩ [] none (u.xs xs) (u.ys ys) (u.ys es) none =
            (newCluster W ⟨xs, ys, es, o.heap.base 0, [], cres, em, o.heap.funcs pf⟩ [] none xs ys es none).map u.cluster :=
          newCluster_units hu h ⟨xs, ys, es, o.heap.base 0, [], cres, em, o.heap.funcs pf⟩ [] none xs ys es none
        rw [e4]
        cases newCluster W ⟨xs, ys, es, o.heap.base 0, [], cres, em, o.heap.funcs pf⟩ [] none xs ys es none with
        | error e => rfl
        | ok mc =>
          simp only [Except.map]
          rw [fitted_units hu h]
          cases fitted W {} mc <;> rfl

theorem heap_update_peaks (H : Heap K) (ip : ℕ) (m : List (Part K)) :
    u.heap { H with peaks := Function.update H.peaks ip m } = { u.heap H with peaks := Function.update (u.heap H).peaks ip (u.parts m) } := by
  unfold Change.heap
  simp only [Heap.mk.injEq, and_true, true_and]
  funext i
  by_cases hi : i = ip
  · subst hi; simp
  · simp [hi]

theorem addPeaks_units (hu : u.Sensible) (h : Alike u W W') (o : Obj K) (ps : List (Part K)) :
    addPeaks W' (u.obj o) (u.parts ps) = ((addPeaks W o ps).1, u.obj (addPeaks W o ps).2) := by
  obtain ⟨vars, heap, ex⟩ := o
  cases ex with
  | some c =>
    have e : replacepeaks W'.as (u.cluster c).model (u.parts ps) 0 0 = _ := replacepeaks_parts hu h.as c.model ps 0 0
    show (match replacepeaks W'.as (u.cluster c).model (u.parts ps) 0 0 with
      | (r, m) => (r, { u.obj ⟨vars, heap, some c⟩ with extracted := some { u.cluster c with model := m } })) = _
    rw [e]
    rfl
  | none =>
    obtain ⟨x, y, dx, dy, eff, rng, pf, ip, bl, cres, em⟩ := vars
    cases ip with
    | none => rfl
    | some ip =>
      have e1 : (u.heap heap).peaks ip ++ u.parts ps = u.parts (heap.peaks ip ++ ps) := (parts_append _ _).symm
      have e2 := sort_parts hu h.as false (heap.peaks ip ++ ps)
      have e3 := heap_update_peaks (u := u) heap ip (sort W.as false pos (heap.peaks ip ++ ps))
      rw [← e2, ← e1] at e3
      exact Prod.ext rfl (congrArg (fun H => (⟨u.vars ⟨x, y, dx, dy, eff, rng, pf, some ip, bl, cres, em⟩, H, none⟩ : Obj K)) e3.symm)

theorem estimatePeak_units (hu : u.Sensible) (h : Alike u W W') (hD : DefaultsAlike u D D') (o : Obj K) (v : K) (add : Bool) :
    estimatePeak W' D' (u.obj o) (u.a * v) add =
      ((estimatePeak W D o v add).1.map (Option.map u.part), u.obj (estimatePeak W D o v add).2) := by
  unfold estimatePeak
  have e0 : defaultvars D' (u.obj o).vars = both u (defaultvars D o.vars) := defaultvars_units hu hD o.vars
  rw [e0]
  generalize defaultvars D o.vars = R
  obtain ⟨q, s⟩ := R
  cases q with
  | error e => rfl
  | ok w =>
    simp only [both]
    have e1 : nearFit W' { u.obj o with vars := u.vars s } (u.a * v) = _ := nearFit_units hu h { o with vars := s } v
    rw [e1]
    cases nearFit W { o with vars := s } v with
    | error e => rfl
    | ok m =>
      cases m with
      | nil => rfl
      | cons p ps =>
        cases add with
        | false => rfl
        | true =>
          simp only [Except.map, if_true]
          have e2 : addPeaks W' { u.obj o with vars := u.vars s } (u.part p :: u.parts ps) = _ := addPeaks_units hu h { o with vars := s } (p :: ps)
          have e3 : u.parts (p :: ps) = u.part p :: u.parts ps := rfl
          rw [e3]
          simp only
          rw [e2]
          generalize addPeaks W { o with vars := s } (p :: ps) = R
          obtain ⟨q, o'⟩ := R
          cases q <;> rfl

theorem touched_units (hu : u.Sensible) (h : Alike u W W') (H : Heap K) (ip bl : ℕ) (o : Opts) (c : Cluster K) :
    touched W' (u.heap H) ip bl o (u.cluster c) = u.heap (touched W H ip bl o c) := by
  have hf := final_alike h
  have e1 := fit_units hu (hf.env c) o c
  have e2 := (launch_units hu (hf.env c) o c).1
  have hm : (u.cluster c).model = [] ↔ c.model = [] := parts_nil
  have hn : (u.cluster c).neverFit = c.neverFit := rfl
  unfold touched
  rw [e1, e2, hn]
  simp only [hm]
  unfold Change.heap
  simp only [Heap.mk.injEq, and_true]
  constructor
  · split
    · rfl
    · funext i
      by_cases hi : i = bl
      · subst hi
        simp only [Function.update_self]
        cases (launch ((Extract.final W).env c) o c).2.2 <;> rfl
      · simp [hi]
  · funext i
    by_cases hi : i = ip
    · subst hi; simp
    · simp [hi]

theorem fitSingle_units (hu : u.Sensible) (h : Alike u W W') (hD : DefaultsAlike u D D') (o : Obj K) :
    fitSingle W' D' (u.obj o) = ((fitSingle W D o).1, u.obj (fitSingle W D o).2) := by
  unfold fitSingle
  have e0 : defaultvars D' (u.obj o).vars = both u (defaultvars D o.vars) := defaultvars_units hu hD o.vars
  rw [e0]
  generalize defaultvars D o.vars = R
  obtain ⟨q, s⟩ := R
  cases q with
  | error e => rfl
  | ok w =>
    simp only [both]
    have e1 : jobOf (u.obj o).heap (u.vars s) = (jobOf o.heap s).map u.job := jobOf_units hu o.heap s
    have e2 : (u.vars s).initialPeaks = s.initialPeaks := rfl
    have e3 : (u.vars s).baseline = s.baseline := rfl
    rw [e1, e2, e3]
    cases jobOf o.heap s with
    | error e => rfl
    | ok J =>
      simp only [Except.map]
      cases s.initialPeaks with
      | none => rfl
      | some ip =>
        cases s.baseline with
        | none => rfl
        | some b =>
          cases b with
          | func f => rfl
          | inst bl =>
            simp only
            have e4 : newCluster W' (u.job J) (u.job J).ip (some (u.job J).bl) (u.job J).x (u.job J).y (u.job J).dy none = _ :=
              newCluster_units hu h J J.ip (some J.bl) J.x J.y J.dy none
            rw [e4]
            cases newCluster W J J.ip (some J.bl) J.x J.y J.dy none with
            | error e => rfl
            | ok c =>
              simp only [Except.map]
              have e5 : touched W' (u.obj o).heap ip bl { fitbaseline := true, estimate := false } (u.cluster c) = _ := touched_units hu h o.heap ip bl _ c
              rw [fitted_units hu (final_alike h), e5]
              cases fitted (Extract.final W) { fitbaseline := true, estimate := false } c <;> rfl

end Verif.Parts.Units
