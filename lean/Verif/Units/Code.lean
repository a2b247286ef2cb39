import Verif.Units.Optimiser

/-! # Lemmas for C104: the numerics of the code in other units -/

set_option linter.unusedSectionVars false

namespace Verif.Parts.Units

open Verif.Py Verif.PeakList Verif.Parts.ModelCluster Verif.Parts.Extract Verif.Extraction

variable {K : Type} [Field K] [LinearOrder K] [IsStrictOrderedRing K]

variable {u : Change K} {N N' : Numerics K}

theorem chiSquared_scaled {k : K} (hk : k ≠ 0) : ∀ e o d : List K,
    Evaluator.chiSquared (e.map (fun v => k * v)) (o.map (fun v => k * v)) (d.map (fun v => k * v)) = Evaluator.chiSquared e o d
  | [], _, _ => rfl
  | _ :: _, [], _ => rfl
  | _ :: _, _ :: _, [] => rfl
  | e :: es, o :: os, d :: ds => by
    show (k * e - k * o) ^ 2 / (k * d) ^ 2 + Evaluator.chiSquared _ _ _ = (e - o) ^ 2 / d ^ 2 + Evaluator.chiSquared es os ds
    rw [chiSquared_scaled hk es os ds, ← mul_sub, mul_pow, mul_pow, mul_div_mul_left _ _ (pow_ne_zero 2 hk)]

theorem inSlice_xs (c : Cluster K) (l : List K) : inSlice (u.cluster c) (u.xs l) = u.xs (inSlice c l) := by
  unfold inSlice
  have i1 : (u.cluster c).slice = c.slice := rfl
  rw [i1]
  cases c.slice with
  | none => rfl
  | some s => exact get_xs s l

theorem inSlice_ys (c : Cluster K) (l : List K) : inSlice (u.cluster c) (u.ys l) = u.ys (inSlice c l) := by
  unfold inSlice
  have i1 : (u.cluster c).slice = c.slice := rfl
  rw [i1]
  cases c.slice with
  | none => rfl
  | some s => exact get_ys s l

theorem curve_units (h : NumericsAlike u N N') (m : List (Part K)) (x : K) : curve N'.val (u.parts m) (u.a * x) = u.k * curve N.val m x := by
  unfold curve Change.parts
  induction m with
  | nil => simp
  | cons p m ih =>
    simp only [List.map_cons, List.sum_cons]
    rw [ih, h.val, mul_add]

theorem toList_units (b : Option (Part K)) : (b.map u.part).toList = u.parts b.toList := by cases b <;> rfl

theorem seenFit_units (hu : u.Sensible) (h : NumericsAlike u N N') (c : Cluster K) (m : List (Part K)) (b : Option (Part K)) :
    seenFit N' (u.cluster c) (u.parts m) (b.map u.part) =
      ⟨npars m false, npars m true, u.ys ((inSlice c c.r).map (curve N.val (b.toList ++ m))), u.ys (inSlice c c.y), u.ys (inSlice c c.err)⟩ := by
  unfold seenFit
  have e1 : inSlice (u.cluster c) (u.cluster c).r = u.xs (inSlice c c.r) := inSlice_xs c c.r
  have e2 : inSlice (u.cluster c) (u.cluster c).y = u.ys (inSlice c c.y) := inSlice_ys c c.y
  have e3 : inSlice (u.cluster c) (u.cluster c).err = u.ys (inSlice c c.err) := inSlice_ys c c.err
  rw [npars_parts hu, npars_parts hu, toList_units, ← parts_append, e1, e2, e3]
  have e4 : (u.xs (inSlice c c.r)).map (curve N'.val (u.parts (b.toList ++ m))) = u.ys ((inSlice c c.r).map (curve N.val (b.toList ++ m))) := by
    unfold Change.xs Change.ys
    rw [List.map_map, List.map_map]
    exact List.map_congr_left (fun x _ => curve_units h _ x)
  rw [e4]

theorem rate_units (hu : u.Sensible) (h : NumericsAlike u N N') (c : Cluster K) (m : List (Part K)) (b : Option (Part K)) (k : ℤ) :
    rate N' (u.cluster c) (u.parts m) (b.map u.part) k = rate N c m b k := by
  unfold rate
  have i1 : (u.cluster c).method = c.method := rfl
  rw [i1, h.kind, seenFit_units hu h]
  unfold Evaluator.evaluate seenFit Evaluator.Fit.size Evaluator.chisqOf
  simp only [ys_length]
  have e : ∀ kd : Evaluator.Kind, (Evaluator.new kd : Evaluator.Ev K).chisq = none := by intro kd; cases kd <;> rfl
  simp only [e, Change.ys, chiSquared_scaled hu.k.ne']

theorem leastNpars_units (hu : u.Sensible) (h : NumericsAlike u N N') (fs : List ℕ) : leastNpars N' fs = leastNpars N fs := by
  unfold leastNpars
  have : fs.map (fun f => (N'.func f).npars) = fs.map (fun f => (N.func f).npars) :=
    List.map_congr_left (fun f _ => by rw [h.func, hu.npars])
  rw [this]

theorem grows_units (hu : u.Sensible) (h : NumericsAlike u N N') (c : Cluster K) (m : List (Part K)) (b : Option (Part K)) :
    grows N' (u.cluster c) (u.parts m) (b.map u.part) = grows N c m b := by
  unfold grows
  have i1 : (u.cluster c).method = c.method := rfl
  have i2 : (u.cluster c).funcs = c.funcs := rfl
  rw [rate_units hu h, leastNpars_units hu h, i1, i2, h.kind, seenFit_units hu h]
  unfold Evaluator.growthJustified seenFit Evaluator.Fit.size Evaluator.chisqOf
  simp only [Change.ys, chiSquared_scaled hu.k.ne', List.length_map]

theorem feeble_units (hu : u.Sensible) (h : NumericsAlike u N N') (c : Cluster K) (p : Part K) : feeble N' (u.cluster c) (u.part p) = feeble N c p := by
  unfold feeble
  have e1 : inSlice (u.cluster c) (u.cluster c).r = u.xs (inSlice c c.r) := inSlice_xs c c.r
  have e3 : inSlice (u.cluster c) (u.cluster c).err = u.ys (inSlice c c.err) := inSlice_ys c c.err
  rw [e1, e3]
  have e4 : List.zipWith (fun x e => N'.val (u.part p) x - e) (u.xs (inSlice c c.r)) (u.ys (inSlice c c.err)) =
      u.ys (List.zipWith (fun x e => N.val p x - e) (inSlice c c.r) (inSlice c c.err)) := by
    refine zip_map2 ?_ _ _
    intro x e
    rw [h.val]
    ring
  rw [e4]
  exact all_neg hu.k _

theorem searchPos_units (hu : u.Sensible) (m : List (Part K)) (v : K) : searchPos (u.parts m) (u.a * v) = searchPos m v := by
  unfold searchPos Change.parts
  rw [List.takeWhile_map, List.length_map]
  congr 2
  funext p
  simp only [Function.comp, pos_part hu]
  simp [hu.a]

theorem clean_units (hu : u.Sensible) (r0 r1 : K) {f f' : Part K → Bool} (hf : ∀ p, f' (u.part p) = f p) (m : List (Part K)) :
    (cleanfit (fun _ => false) (u.a * r0) (u.a * r1) f' (u.parts m)).2 = u.parts (cleanfit (fun _ => false) r0 r1 f m).2 := by
  have e1 : inRemove (fun _ => false) (u.a * r0) (u.a * r1) f' (u.parts m) = inRemove (fun _ => false) r0 r1 f m := by
    funext i
    unfold inRemove
    have g : ∀ i : ℕ, (u.parts m)[i]? = m[i]?.map u.part := fun i => List.getElem?_map
    simp only [searchPos_units hu, parts_length, g, Option.map_map]
    have e : (fun p => p.removable && f' p) ∘ u.part = (fun p => p.removable && f p) := by
      funext p
      show ((u.part p).removable && f' (u.part p)) = _
      rw [hf]
      rfl
    have e' : (fun p : Part K => p.pars.any (fun _ => false)) ∘ u.part = (fun p => p.pars.any (fun _ => false)) := by
      funext p
      show (u.part p).pars.any (fun _ => false) = p.pars.any (fun _ => false)
      rw [List.any_eq_false.2 (by simp), List.any_eq_false.2 (by simp)]
    rw [e, e']
  unfold cleanfit
  rw [e1, parts_length]
  simp only
  generalize (List.filter (inRemove (fun _ => false) r0 r1 f m) (List.range m.length)).reverse = is
  clear e1
  induction is generalizing m with
  | nil => rfl
  | cons i is ih =>
    simp only [List.foldl_cons]
    rw [← ih]
    congr 1
    exact map_eraseIdx _ _ _

theorem headD_xs (l : List K) : (u.xs l).headD 0 = u.a * l.headD 0 := by cases l <;> simp [Change.xs]

theorem getLastD_xs (l : List K) : (u.xs l).getLastD 0 = u.a * l.getLastD 0 := by
  unfold Change.xs
  rw [List.getLastD_eq_getLast?, List.getLastD_eq_getLast?, List.getLast?_map]
  cases l.getLast? <;> simp

theorem new_units (hu : u.Sensible) (o : Owner K) (v : List K) (b1 b2 b3 : Bool) :
    Part.new (u.fn o) (u.pars o v) none b1 b2 b3 = (Part.new o v none b1 b2 b3).map u.part := by
  unfold Part.new
  rw [pars_length, hu.npars]
  simp only [List.length_map, pars_length]
  split
  · rfl
  · have : (u.pars o v).map (fun _ => true) = v.map (fun _ => true) := by
      rw [List.map_const', List.map_const', pars_length]
    rw [this]
    rfl

theorem guessed_units (hu : u.Sensible) (h : NumericsAlike u N N') (c : Cluster K) :
    guessed N' (u.cluster c) = (guessed N c).map (fun p => p.map u.part) := by
  unfold guessed
  have i1 : (u.cluster c).funcs = c.funcs := rfl
  rw [i1]
  cases c.funcs with
  | nil => rfl
  | cons f fs =>
    have e1 : inSlice (u.cluster c) (u.cluster c).r = u.xs (inSlice c c.r) := inSlice_xs c c.r
    have e2 : inSlice (u.cluster c) (u.cluster c).y = u.ys (inSlice c c.y) := inSlice_ys c c.y
    have e3 : List.zipWith (fun x y => y - curve N'.val (u.cluster c).baseline.toList x) (u.xs (inSlice c c.r)) (u.ys (inSlice c c.y)) =
        u.ys (List.zipWith (fun x y => y - curve N.val c.baseline.toList x) (inSlice c c.r) (inSlice c c.y)) := by
      refine zip_map2 ?_ _ _
      intro x y
      show u.k * y - curve N'.val (c.baseline.map u.part).toList (u.a * x) = _
      rw [toList_units, curve_units h]
      ring
    simp only
    rw [e1, e2, e3, h.func]
    refine map_bind (h.guess f _ _) fun pars => map_bind (h.transform (N.func f) pars) fun pars => map_bind (new_units hu _ _ _ _ _) fun p => rfl

theorem sameBase_units (hu : u.Sensible) (h : NumericsAlike u N N') (b b' : Option (Part K)) :
    sameBase (b.map u.part) (b'.map u.part) = sameBase b b' := by
  cases b with
  | none => cases b' <;> rfl
  | some p =>
    cases b' with
    | none => rfl
    | some q =>
      show (Part.beq (u.part p) (u.part q) && decide ((u.part p).owner.dict = (u.part q).owner.dict)) =
        (Part.beq p q && decide (p.owner.dict = q.owner.dict))
      unfold Part.beq
      have i1 : (u.part p).owner.id = p.owner.id := hu.id _
      have i2 : (u.part q).owner.id = q.owner.id := hu.id _
      have i3 : (u.part p).owner.dict = p.owner.dict := hu.dict _
      have i4 : (u.part q).owner.dict = q.owner.dict := hu.dict _
      rw [i1, i2, i3, i4]
      by_cases h1 : p.owner.id = q.owner.id
      swap
      · simp [h1]
      by_cases h2 : p.owner.dict = q.owner.dict
      swap
      · simp [h2]
      have hw := h.same _ _ h1 h2
      have e : (u.part p).pars = (u.part q).pars ↔ p.pars = q.pars := by
        show p.pars.mapIdx (fun i x => u.w p.owner i * x) = q.pars.mapIdx (fun i x => u.w q.owner i * x) ↔ _
        rw [hw]
        constructor
        · intro hp
          have hl : p.pars.length = q.pars.length := by simpa using congrArg List.length hp
          refine List.ext_getElem hl (fun i h1 h2 => ?_)
          have := congrArg (fun l : List K => l[i]?) hp
          simp only [List.getElem?_mapIdx, List.getElem?_eq_getElem h1, List.getElem?_eq_getElem h2, Option.map_some, Option.some.injEq] at this
          exact mul_left_cancel₀ (hu.w _ _) this
        · intro hp; rw [hp]
      simp only [e]
      rfl

theorem pruneCluster_units (h : NumericsAlike u N N') (c : Cluster K) (out : List (Part K)) :
    pruneCluster N' (u.cluster c) (u.parts out) = u.cluster (pruneCluster N c out) := by
  unfold pruneCluster
  have e1 : inSlice (u.cluster c) (u.cluster c).r = u.xs (inSlice c c.r) := inSlice_xs c c.r
  have e2 : inSlice (u.cluster c) (u.cluster c).y = u.ys (inSlice c c.y) := inSlice_ys c c.y
  have e3 : inSlice (u.cluster c) (u.cluster c).err = u.ys (inSlice c c.err) := inSlice_ys c c.err
  have e4 : List.zipWith (fun x y => y - curve N'.val ((u.cluster c).baseline.toList ++ u.parts out) x) (u.xs (inSlice c c.r)) (u.ys (inSlice c c.y)) =
      u.ys (List.zipWith (fun x y => y - curve N.val (c.baseline.toList ++ out) x) (inSlice c c.r) (inSlice c c.y)) := by
    refine zip_map2 ?_ _ _
    intro x y
    show u.k * y - curve N'.val ((c.baseline.map u.part).toList ++ u.parts out) (u.a * x) = _
    rw [toList_units, ← parts_append, curve_units h]
    ring
  rw [e1, e2, e3, e4, xs_length]
  rfl

theorem codeEnv_units (hu : u.Sensible) (h : NumericsAlike u N N') (c : Cluster K) : EnvAlike u (codeEnv N c) (codeEnv N' (u.cluster c)) where
  quality m b := rate_units hu h c m b 0
  growth m b := grows_units hu h c m b
  lsq m := by
    have hl : (u.cluster c).r.length = c.r.length := xs_length _
    have e0 : (codeEnv N' (u.cluster c)).lsq (u.parts m) = lsqOf ⟨fun _ => false, N'.trunc⟩ (u.cluster c).r.length false
        (fun m => (N'.opt (u.cluster c) m).1) (fun m => (N'.opt (u.cluster c) m).2) (u.parts m) := rfl
    rw [e0, hl]
    refine lsqOf_units hu h.float h.float' (fun _ => rfl) (fun _ => rfl) h.transform _ _ _ _ _ _ m ?_ ?_ (h.packed c m).1 (h.packed c m).2
    · rw [h.opt]
    · rw [h.opt]
  estimate := guessed_units hu h c
  clean m := by
    show (cleanfit _ ((inSlice (u.cluster c) (u.cluster c).r).headD 0) ((inSlice (u.cluster c) (u.cluster c).r).getLastD 0) _ _).2 = _
    have e1 : inSlice (u.cluster c) (u.cluster c).r = u.xs (inSlice c c.r) := inSlice_xs c c.r
    rw [e1, headD_xs, getLastD_xs]
    exact clean_units hu _ _ (fun p => feeble_units hu h c p) m
  as := h.as

theorem auxEnv_units (hu : u.Sensible) (h : NumericsAlike u N N') (c : Cluster K) (out : List (Part K)) :
    EnvAlike u (auxEnv N c out) (auxEnv N' (u.cluster c) (u.parts out)) := by
  have e := codeEnv_units hu h (pruneCluster N c out)
  rw [← pruneCluster_units h] at e
  obtain ⟨a1, a2, a3, a4, a5, a6⟩ := e
  refine ⟨fun m b => a1 m none, fun m b => a2 m none, a3, a4, a5, a6⟩

/-- **The numerics of the code.** -/
theorem code_alike (hu : u.Sensible) (h : NumericsAlike u N N') : Alike u (codeWorld N) (codeWorld N') where
  env := codeEnv_units hu h
  prune := auxEnv_units hu h
  qual c out m k := by
    show rate N' (pruneCluster N' (u.cluster c) (u.parts out)) (u.parts m) none k = rate N (pruneCluster N c out) m none k
    rw [pruneCluster_units h]
    exact rate_units hu h _ m none k
  pick := h.pick
  as := h.as
  asY := h.asY
  val := h.val
  sc := h.sc
  eqv := sameBase_units hu h
  minpoints e f := by
    show (Evaluator.minpoints (N'.kind e) ((N'.func f).npars : ℤ)).toNat = _
    rw [h.kind, h.func, hu.npars]
    rfl
  covLsq c m := by
    have hl : (u.cluster c).r.length = c.r.length := xs_length _
    have e0 : (codeWorld N').covLsq (u.cluster c) (u.parts m) = lsqOf ⟨fun _ => false, N'.trunc⟩ (u.cluster c).r.length true
        (fun m => (N'.opt (u.cluster c) m).1) (fun m => (N'.opt (u.cluster c) m).2) (u.parts m) := rfl
    rw [e0, hl]
    refine lsqOf_units hu h.float h.float' (fun _ => rfl) (fun _ => rfl) h.transform _ _ _ _ _ _ m ?_ ?_ (h.packed c m).1 (h.packed c m).2
    · rw [h.opt]
    · rw [h.opt]

end Verif.Parts.Units
