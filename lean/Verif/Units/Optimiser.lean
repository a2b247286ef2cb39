import Verif.Units.CodeSpec

/-! # Lemmas for C104: least squares in other units -/

set_option linter.unusedSectionVars false

namespace Verif.Parts.Units

open Verif.Py Verif.PeakList Verif.Parts.ModelCluster Verif.Parts.Extract Verif.Extraction

variable {K : Type} [Field K] [LinearOrder K] [IsStrictOrderedRing K]

variable {u : Change K}

/-- What a fit keeps of a part. -/
def sig (p : Part K) : Owner K × List Bool := (p.owner, p.free)

theorem factors_sig {m m' : List (Part K)} (h : m'.map sig = m.map sig) : m'.flatMap u.factors = m.flatMap u.factors := by
  have e : ∀ l : List (Part K), l.flatMap u.factors = (l.map sig).flatMap (fun s => selectMask ((List.range s.2.length).map (u.w s.1)) s.2) := by
    intro l
    rw [List.flatMap_map]
    rfl
  rw [e, e, h]

theorem npars_sig {m m' : List (Part K)} (h : m'.map sig = m.map sig) : npars m' false = npars m false := by
  have e : ∀ l : List (Part K), npars l false = ((l.map sig).map (fun s => s.2.count true)).sum := by
    intro l
    unfold npars
    rw [List.map_map]
    rfl
  rw [e, e, h]

theorem vec_sig {m m' : List (Part K)} (h : m'.map sig = m.map sig) (v : List K) : u.vec m' v = u.vec m v := by
  unfold Change.vec
  rw [factors_sig h]

theorem selectMask_length {α : Type} : ∀ (l : List α) (ms : List Bool), l.length = ms.length → (selectMask l ms).length = ms.count true
  | [], [], _ => rfl
  | a :: l, true :: ms, h => by
    simp only [List.length_cons, Nat.add_right_cancel_iff] at h
    simp [selectMask, selectMask_length l ms h]
  | a :: l, false :: ms, h => by
    simp only [List.length_cons, Nat.add_right_cancel_iff] at h
    simp [selectMask, selectMask_length l ms h]
  | [], _ :: _, h => by simp at h
  | _ :: _, [], h => by simp at h

theorem selectMask_length_congr {α β : Type} : ∀ (l : List α) (l' : List β) (ms : List Bool), l.length = l'.length →
    (selectMask l ms).length = (selectMask l' ms).length
  | [], [], ms, _ => by simp [selectMask]
  | a :: l, b :: l', [], _ => by simp [selectMask]
  | a :: l, b :: l', true :: ms, h => by
    simp only [List.length_cons, Nat.add_right_cancel_iff] at h
    simp [selectMask, selectMask_length_congr l l' ms h]
  | a :: l, b :: l', false :: ms, h => by
    simp only [List.length_cons, Nat.add_right_cancel_iff] at h
    simp [selectMask, selectMask_length_congr l l' ms h]
  | [], _ :: _, _, h => by simp at h
  | _ :: _, [], _, h => by simp at h

theorem factors_length (p : Part K) : (u.factors p).length = p.npars false := by
  unfold Change.factors
  rw [selectMask_length _ _ (by simp)]
  rfl

theorem assign_scaled : ∀ (free : List Bool) (g : ℕ → K) (pars vals : List K),
    assignMask (pars.mapIdx (fun i x => g i * x)) free (List.zipWith (fun f x => f * x) (selectMask ((List.range free.length).map g) free) vals) =
      (assignMask pars free vals).mapIdx (fun i x => g i * x)
  | [], g, pars, vals => by
    cases pars <;> simp [assignMask, List.mapIdx_cons]
  | b :: free, g, [], vals => by
    simp [assignMask]
  | true :: free, g, a :: pars, [] => by
    simp [assignMask, List.mapIdx_cons]
  | true :: free, g, a :: pars, v :: vals => by
    have ih := assign_scaled free (fun i => g (i + 1)) pars vals
    rw [List.length_cons, List.range_succ_eq_map, List.map_cons, List.map_map, List.mapIdx_cons]
    simp only [selectMask, List.zipWith_cons_cons, assignMask, List.mapIdx_cons]
    rw [← ih]
    rfl
  | false :: free, g, a :: pars, vals => by
    have ih := assign_scaled free (fun i => g (i + 1)) pars vals
    rw [List.length_cons, List.range_succ_eq_map, List.map_cons, List.map_map, List.mapIdx_cons]
    simp only [selectMask, assignMask, List.mapIdx_cons]
    rw [← ih]
    rfl

variable {F F' : Flt K}

theorem partUpdate_units (hu : u.Sensible) (hF : ∀ v, F.trunc v = v) (hF' : ∀ v, F'.trunc v = v) (p : Part K) (rest v : List K)
    (hv : p.npars false ≤ v.length) :
    (u.part p).update F' (List.zipWith (fun f x => f * x) (u.factors p ++ rest) v) = (.ok (p.npars false), u.part (p.update F v).2) ∧
      p.update F v = (.ok (p.npars false), (p.update F v).2) ∧ sig (p.update F v).2 = sig p := by
  have e0 : ∀ w : List K, w.map (fun v => if p.isInt then F.trunc v else v) = w := by
    intro w
    conv_rhs => rw [← List.map_id w]
    exact List.map_congr_left (fun v _ => by rw [hF]; simp)
  have e0' : ∀ w : List K, w.map (fun v => if (u.part p).isInt then F'.trunc v else v) = w := by
    intro w
    conv_rhs => rw [← List.map_id w]
    exact List.map_congr_left (fun v _ => by rw [hF']; simp)
  have e1 : p.update F v = (.ok (p.npars false), { p with pars := assignMask p.pars p.free (v.take (p.npars false)) }) := by
    unfold Part.update
    simp only [e0]
    rw [if_pos (by rw [List.length_take]; omega)]
  have e2 : (List.zipWith (fun f x => f * x) (u.factors p ++ rest) v).take (p.npars false) =
      List.zipWith (fun f x => f * x) (u.factors p) (v.take (p.npars false)) := by
    rw [List.take_zipWith, ← factors_length (u := u) p, List.take_left]
  refine ⟨?_, by rw [e1], by rw [e1]; rfl⟩
  unfold Part.update
  simp only [e0']
  rw [part_npars hu, e2, if_pos (by rw [List.length_zipWith, factors_length, List.length_take]; omega), ← Part.update, e1]
  have e3 := assign_scaled p.free (u.w p.owner) p.pars (v.take (p.npars false))
  refine Prod.ext rfl ?_
  exact congrArg (fun l => ({ u.part p with pars := l } : Part K)) e3

theorem packLoop_units (hu : u.Sensible) (hF : ∀ v, F.trunc v = v) (hF' : ∀ v, F'.trunc v = v) : ∀ (m : List (Part K)) (v : List K),
    v.length = npars m false →
    packLoop F' (u.parts m) (u.vec m v) = (.ok (), u.parts (packLoop F m v).2) ∧ (packLoop F m v).1 = .ok () ∧
      (packLoop F m v).2.map sig = m.map sig
  | [], v, _ => ⟨rfl, rfl, rfl⟩
  | p :: m, v, hv => by
    have hn : npars (p :: m) false = p.npars false + npars m false := by simp [npars]
    obtain ⟨h1, h2, h3⟩ := partUpdate_units hu hF hF' p (m.flatMap u.factors) v (by omega)
    have e1 : (List.zipWith (fun f x => f * x) (u.factors p ++ m.flatMap u.factors) v).drop (p.npars false) = u.vec m (v.drop (p.npars false)) := by
      rw [List.drop_zipWith, ← factors_length (u := u) p, List.drop_left]
      rfl
    obtain ⟨i1, i2, i3⟩ := packLoop_units hu hF hF' m (v.drop (p.npars false)) (by rw [List.length_drop]; omega)
    have e2 : packLoop F (p :: m) v = ((packLoop F m (v.drop (p.npars false))).1, (p.update F v).2 :: (packLoop F m (v.drop (p.npars false))).2) := by
      conv_lhs => unfold packLoop
      rw [h2]
    have e3 : packLoop F' (u.parts (p :: m)) (u.vec (p :: m) v) =
        ((packLoop F' (u.parts m) (u.vec m (v.drop (p.npars false)))).1,
          u.part (p.update F v).2 :: (packLoop F' (u.parts m) (u.vec m (v.drop (p.npars false)))).2) := by
      show packLoop F' (u.part p :: u.parts m) (List.zipWith (fun f x => f * x) (u.factors p ++ m.flatMap u.factors) v) = _
      conv_lhs => unfold packLoop
      rw [h1]
      simp only
      rw [e1]
    rw [e3, e2, i1]
    refine ⟨rfl, i2, ?_⟩
    simp only [List.map_cons, h3, i3]

theorem pack_units (hu : u.Sensible) (hF : ∀ v, F.trunc v = v) (hF' : ∀ v, F'.trunc v = v) (hn : ∀ v, F.isnan v = false)
    (hn' : ∀ v, F'.isnan v = false) (m : List (Part K)) (v : List K) (hv : v.length = npars m false) :
    pack F' (u.parts m) (u.vec m v) = (.ok (), u.parts (pack F m v).2) ∧ (pack F m v).1 = .ok () ∧ (pack F m v).2.map sig = m.map sig := by
  unfold pack
  have e : ∀ w : List K, w.any F.isnan = false := by intro w; simp [hn]
  have e' : ∀ w : List K, w.any F'.isnan = false := by intro w; simp [hn']
  rw [e, e', if_neg (by simp), if_neg (by simp)]
  exact packLoop_units hu hF hF' m v hv

theorem runTrace_units (hu : u.Sensible) (hF : ∀ v, F.trunc v = v) (hF' : ∀ v, F'.trunc v = v) (hn : ∀ v, F.isnan v = false)
    (hn' : ∀ v, F'.isnan v = false) {m0 : List (Part K)} : ∀ (t : List (List K)) (m : List (Part K)), m.map sig = m0.map sig →
    (∀ v ∈ t, v.length = npars m0 false) →
    runTrace F' (u.parts m) (t.map (u.vec m0)) = (.ok (), u.parts (runTrace F m t).2) ∧ (runTrace F m t).1 = .ok () ∧
      (runTrace F m t).2.map sig = m0.map sig
  | [], m, hm, _ => ⟨rfl, rfl, hm⟩
  | v :: t, m, hm, ht => by
    obtain ⟨h1, h2, h3⟩ := pack_units hu hF hF' hn hn' m v (by rw [npars_sig hm]; exact ht v List.mem_cons_self)
    obtain ⟨i1, i2, i3⟩ := runTrace_units hu hF hF' hn hn' t (pack F m v).2 (h3.trans hm) (fun w hw => ht w (List.mem_cons_of_mem _ hw))
    have e1 : runTrace F m (v :: t) = runTrace F (pack F m v).2 t := by
      conv_lhs => unfold runTrace
      have : pack F m v = (.ok (), (pack F m v).2) := by rw [← h2]
      rw [this]
    have e2 : runTrace F' (u.parts m) ((v :: t).map (u.vec m0)) = runTrace F' (u.parts (pack F m v).2) (t.map (u.vec m0)) := by
      rw [vec_sig hm] at h1
      conv_lhs => rw [List.map_cons]; unfold runTrace
      rw [h1]
    rw [e1, e2]
    exact ⟨i1, i2, i3⟩

theorem cleanup_units (hT : ∀ o v, (u.fn o).transform (u.pars o v) (some "internal") (some "internal") =
    (o.transform v (some "internal") (some "internal")).map (u.pars o)) : ∀ m : List (Part K),
    cleanup (u.parts m) = ((cleanup m).1, u.parts (cleanup m).2)
  | [] => rfl
  | p :: m => by
    have ih := cleanup_units hT m
    show cleanup (u.part p :: u.parts m) = _
    unfold cleanup
    have e : (u.part p).owner.transform (u.part p).pars (some "internal") (some "internal") =
        (p.owner.transform p.pars (some "internal") (some "internal")).map (u.pars p.owner) := hT p.owner p.pars
    rw [e]
    cases p.owner.transform p.pars (some "internal") (some "internal") with
    | error e => rfl
    | ok q =>
      simp only [Except.map]
      rw [ih]
      rfl

/-- The answer without the covariance matrix. -/
def plain (r : Res (Option (List (List K))) × List (Part K)) : Res Unit × List (Part K) := (r.1.map (fun _ => ()), r.2)

theorem finishFit_units (hu : u.Sensible) (hF : ∀ v, F.trunc v = v) (hF' : ∀ v, F'.trunc v = v) (hn : ∀ v, F.isnan v = false)
    (hn' : ∀ v, F'.isnan v = false) (hT : ∀ o v, (u.fn o).transform (u.pars o v) (some "internal") (some "internal") =
    (o.transform v (some "internal") (some "internal")).map (u.pars o)) {m0 : List (Part K)} (m : List (Part K)) (hm : m.map sig = m0.map sig)
    (nr n : ℕ) (cov : Bool) (x : List K) (hx : x.length = npars m0 false) (ier : ℤ) (c : Option (List (List K))) (f : List K) :
    plain (finishFit F' (u.parts m) nr n cov (u.vec m0 x) ier (c.map (u.mat m0)) f) =
      ((plain (finishFit F m nr n cov x ier c f)).1, u.parts (plain (finishFit F m nr n cov x ier c f)).2) := by
  obtain ⟨h1, h2, h3⟩ := pack_units hu hF hF' hn hn' m x (by rw [npars_sig hm]; exact hx)
  rw [vec_sig hm] at h1
  have h2' : pack F m x = (.ok (), (pack F m x).2) := by rw [← h2]
  unfold finishFit
  rw [h1, h2']
  simp only
  split
  · rfl
  rw [cleanup_units hT]
  cases cleanup (pack F m x).2 with
  | mk r q =>
    cases r with
    | error e => rfl
    | ok v =>
      cases cov with
      | false => rfl
      | true => cases c <;> rfl

theorem runLsq_units (hu : u.Sensible) (hF : ∀ v, F.trunc v = v) (hF' : ∀ v, F'.trunc v = v) (hn : ∀ v, F.isnan v = false)
    (hn' : ∀ v, F'.isnan v = false) {m0 : List (Part K)} (m : List (Part K)) (hm : m.map sig = m0.map sig) (l : Lsq K) (hl : Packed m0 l) :
    runLsq F' (u.parts m) (u.run m0 l) =
        ((runLsq F m l).1.map (fun r => (u.vec m0 r.1, r.2.1, r.2.2.1.map (u.mat m0), r.2.2.2)), u.parts (runLsq F m l).2) ∧
      (runLsq F m l).2.map sig = m0.map sig ∧ (∀ r, (runLsq F m l).1 = .ok r → r.1.length = npars m0 false) := by
  obtain ⟨h1, h2, h3⟩ := runTrace_units hu hF hF' hn hn' l.trace m hm hl.1
  have h2' : runTrace F m l.trace = (.ok (), (runTrace F m l.trace).2) := by rw [← h2]
  unfold runLsq Change.run
  rw [h1, h2']
  simp only
  cases ho : l.outcome with
  | raises e => exact ⟨rfl, h3, fun r hr => by simp at hr⟩
  | done x ier c f =>
    refine ⟨rfl, h3, fun r hr => ?_⟩
    simp only [Except.ok.injEq] at hr
    subst hr
    exact hl.2 x ier c f ho

theorem unpack_units (m : List (Part K)) : (unpack (u.parts m)).map List.length = (unpack m).map List.length := by
  unfold unpack
  cases m with
  | nil => rfl
  | cons p m =>
    rw [if_neg (by simp [Change.parts]), if_neg (by simp)]
    simp only [Except.map]
    congr 1
    rw [List.length_flatMap, List.length_flatMap, Change.parts, List.map_map]
    congr 1
    refine List.map_congr_left (fun q _ => ?_)
    exact selectMask_length_congr _ _ _ (pars_length _ _)

theorem lsqOf_units (hu : u.Sensible) (hF : ∀ v, F.trunc v = v) (hF' : ∀ v, F'.trunc v = v) (hn : ∀ v, F.isnan v = false)
    (hn' : ∀ v, F'.isnan v = false) (hT : ∀ o v, (u.fn o).transform (u.pars o v) (some "internal") (some "internal") =
    (o.transform v (some "internal") (some "internal")).map (u.pars o)) (nr : ℕ) (cov : Bool) (l1 l2 l1' l2' : List (Part K) → Lsq K)
    (m : List (Part K)) (h1 : l1' (u.parts m) = u.run m (l1 m)) (h2 : l2' (u.parts m) = u.run m (l2 m)) (p1 : Packed m (l1 m)) (p2 : Packed m (l2 m)) :
    lsqOf F' nr cov l1' l2' (u.parts m) = ((lsqOf F nr cov l1 l2 m).1, u.parts (lsqOf F nr cov l1 l2 m).2) := by
  have key : plain (Parts.fit F' (u.parts m) nr cov (l1' (u.parts m)) (l2' (u.parts m))) =
      ((plain (Parts.fit F m nr cov (l1 m) (l2 m))).1, u.parts (plain (Parts.fit F m nr cov (l1 m) (l2 m))).2) := by
    rw [h1, h2]
    unfold Parts.fit
    have hl := unpack_units (u := u) m
    cases hv : unpack m with
    | error e =>
      cases hv' : unpack (u.parts m) with
      | error e' =>
        rw [hv, hv'] at hl
        simp only [Except.map, Except.error.injEq] at hl
        subst hl
        rfl
      | ok v' => rw [hv, hv'] at hl; simp [Except.map] at hl
    | ok v =>
      cases hv' : unpack (u.parts m) with
      | error e' => rw [hv, hv'] at hl; simp [Except.map] at hl
      | ok v' =>
        rw [hv, hv'] at hl
        simp only [Except.map, Except.ok.injEq] at hl
        simp only [hl]
        split
        · rfl
        split
        · rfl
        obtain ⟨r1, s1, n1⟩ := runLsq_units hu hF hF' hn hn' m rfl (l1 m) p1
        rw [r1]
        cases hr : runLsq F m (l1 m) with
        | mk q ps =>
          rw [hr] at s1 n1
          cases q with
          | ok r => exact finishFit_units hu hF hF' hn hn' hT ps s1 nr v.length cov r.1 (n1 r rfl) r.2.1 r.2.2.1 r.2.2.2
          | error e =>
            cases e <;> try rfl
            simp only [Except.map]
            obtain ⟨r2, s2, n2⟩ := runLsq_units hu hF hF' hn hn' ps s1 (l2 m) p2
            rw [r2]
            cases hr2 : runLsq F ps (l2 m) with
            | mk q ps2 =>
              rw [hr2] at s2 n2
              cases q with
              | ok r => exact finishFit_units hu hF hF' hn hn' hT ps2 s2 nr v.length cov r.1 (n2 r rfl) r.2.1 r.2.2.1 r.2.2.2
              | error e => rfl
  exact key

end Verif.Parts.Units
