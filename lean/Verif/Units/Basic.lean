import Verif.Units.Spec
import Verif.ModelCluster.Greedy

/-! # Lemmas for C104: lists of peaks and single clusters -/

set_option linter.unusedSectionVars false

namespace Verif.Parts.Units

open Verif.Py Verif.PeakList Verif.Parts.ModelCluster Verif.Parts.Extract Verif.Extraction

variable {K : Type} [Field K] [LinearOrder K] [IsStrictOrderedRing K]

variable {u : Change K}

/-! ### Results -/

theorem map_bind {α β γ δ : Type} {F : α → β} {G : γ → δ} {x : Res α} {x' : Res β} {f : α → Res γ} {f' : β → Res δ}
    (hx : x' = x.map F) (hf : ∀ v, f' (F v) = (f v).map G) : (x' >>= f') = (x >>= f).map G := by
  subst hx
  cases x with
  | error e => rfl
  | ok v => exact hf v

/-! ### Lists -/

theorem getSlice_map {α β : Type} (f : α → β) (l : List α) (s : Option (ℕ × ℕ)) : getSlice (l.map f) s = (getSlice l s).map f := by
  unfold getSlice
  simp only [List.length_map, List.map_take, List.map_drop]

theorem slice_get_map {α β : Type} (f : α → β) (s : Slice) (l : List α) : s.get (l.map f) = (s.get l).map f := getSlice_map f l _

theorem zip_map2 {α β γ α' β' γ' : Type} {f : α → β → γ} {f' : α' → β' → γ'} {p : α → α'} {q : β → β'} {r : γ → γ'}
    (h : ∀ a b, f' (p a) (q b) = r (f a b)) (l : List α) (m : List β) :
    List.zipWith f' (l.map p) (m.map q) = (List.zipWith f l m).map r := by
  rw [List.zipWith_map, List.map_zipWith]
  simp only [h]

theorem filterMap_parts (f : Part K → Part K) (m : List (Part K)) (is : List ℕ) :
    is.filterMap (fun i => (m.map f)[i]?) = (is.filterMap (fun i => m[i]?)).map f := by
  induction is with
  | nil => rfl
  | cons i is ih =>
    simp only [List.filterMap_cons, List.getElem?_map]
    cases m[i]? with
    | none => simpa using ih
    | some p => simpa using ih

theorem takeWhile_lt_map {t : K} (ht : 0 < t) (l : List K) (v : K) :
    ((l.map (fun x => t * x)).takeWhile (fun p => decide (p < t * v))).length = (l.takeWhile (fun p => decide (p < v))).length := by
  rw [List.takeWhile_map, List.length_map]
  congr 2
  funext x
  simp [mul_lt_mul_iff_right₀ ht]

/-! ### Parts -/

theorem part_owner (p : Part K) : (u.part p).owner = u.fn p.owner := rfl

theorem part_free (p : Part K) : (u.part p).free = p.free := rfl

theorem part_npars (hu : u.Sensible) (p : Part K) (b : Bool) : (u.part p).npars b = p.npars b := by
  unfold Part.npars
  rw [part_owner, hu.npars, part_free]

theorem npars_parts (hu : u.Sensible) (m : List (Part K)) (b : Bool) : npars (u.parts m) b = npars m b := by
  unfold npars Change.parts
  rw [List.map_map]
  congr 1
  apply List.map_congr_left
  intro p _
  exact part_npars hu p b

theorem pars_length (o : Owner K) (v : List K) : (u.pars o v).length = v.length := by simp [Change.pars]

theorem pos_part (hu : u.Sensible) (p : Part K) : pos (u.part p) = u.a * pos p := by
  unfold pos Part.get Part.position
  simp only
  rw [part_owner, hu.dict]
  cases hf : p.owner.dict.find? (fun kv => kv.1 == "position") with
  | none => simp
  | some kv =>
    obtain ⟨n, i⟩ := kv
    have hw := hu.position p.owner _ hf
    simp only at hw ⊢
    have : (u.part p).pars[i]? = p.pars[i]?.map (fun x => u.w p.owner i * x) := by
      simp [Change.part, Change.pars, List.getElem?_mapIdx]
    rw [this]
    cases p.pars[i]? with
    | none => simp
    | some v => simp [hw]

theorem positions (hu : u.Sensible) (m : List (Part K)) : (u.parts m).map pos = u.xs (m.map pos) := by
  unfold Change.parts Change.xs
  rw [List.map_map, List.map_map]
  apply List.map_congr_left
  intro p _
  exact pos_part hu p

theorem parts_append (l m : List (Part K)) : u.parts (l ++ m) = u.parts l ++ u.parts m := List.map_append

theorem parts_length (m : List (Part K)) : (u.parts m).length = m.length := List.length_map _

theorem parts_nil {m : List (Part K)} : u.parts m = [] ↔ m = [] := List.map_eq_nil_iff

theorem sort_parts (hu : u.Sensible) {as as' : List K → List ℕ} (h : ∀ l, as' (u.xs l) = as l) (b : Bool) (m : List (Part K)) :
    sort as' b pos (u.parts m) = u.parts (sort as b pos m) := by
  unfold sort
  rw [positions hu, h]
  exact filterMap_parts _ _ _

theorem sortedLoop_map {t : K} (ht : 0 < t) : ∀ l : List K, sortedLoop (l.map (fun v => t * v)) = sortedLoop l
  | [] => rfl
  | [_] => rfl
  | a :: b :: l => by
    have := sortedLoop_map ht (b :: l)
    simp only [List.map_cons] at this ⊢
    unfold sortedLoop
    simp only [mul_lt_mul_iff_right₀ ht]
    split
    · rfl
    · exact this

theorem argsort_parts (hu : u.Sensible) {as as' : List K → List ℕ} (h : ∀ l, as' (u.xs l) = as l) (m : List (Part K)) :
    argsort as' pos (u.parts m) = argsort as pos m := by
  unfold argsort
  simp only
  rw [positions hu, h]
  have : sortedLoop (u.xs (m.map pos)) = sortedLoop (m.map pos) := sortedLoop_map hu.a _
  rw [this]
  simp [Change.xs]

theorem any_removable (m : List (Part K)) : (u.parts m).any (fun p => p.removable) = m.any (fun p => p.removable) := by
  unfold Change.parts
  rw [List.any_map]
  rfl

theorem any_hard (m : List (Part K)) : (u.parts m).any (fun p => !p.removable) = m.any (fun p => !p.removable) := by
  unfold Change.parts
  rw [List.any_map]
  rfl

theorem replacepeaks_parts (hu : u.Sensible) {as as' : List K → List ℕ} (h : ∀ l, as' (u.xs l) = as l) (m new : List (Part K)) (i j : ℕ) :
    replacepeaks as' (u.parts m) (u.parts new) i j = ((replacepeaks as m new i j).1, u.parts (replacepeaks as m new i j).2) := by
  unfold replacepeaks
  have e : getSlice (u.parts m) (some (i, j)) = u.parts (getSlice m (some (i, j))) := getSlice_map _ _ _
  rw [e, any_hard]
  split
  · rfl
  · simp only [parts_length]
    have : (u.parts m).take (bounds m.length (some (i, j))).1 ++ u.parts new ++ (u.parts m).drop (bounds m.length (some (i, j))).2 =
        u.parts (m.take (bounds m.length (some (i, j))).1 ++ new ++ m.drop (bounds m.length (some (i, j))).2) := by
      simp [Change.parts]
    rw [this, sort_parts hu h]

/-! ### Heights -/

/-- Values and `scale_at` of peaks in both units. -/
structure Curves (u : Change K) (val val' : Part K → K → K) (sc sc' : Part K → K → K → Res (List K)) : Prop where
  val : ∀ p x, val' (u.part p) (u.a * x) = u.k * val p x
  sc : ∀ p x s, sc' (u.part p) (u.a * x) s = (sc p x s).map (u.pars p.owner)

variable {val val' : Part K → K → K} {sc sc' : Part K → K → K → Res (List K)}

theorem valueAt_parts (hv : ∀ p x, val' (u.part p) (u.a * x) = u.k * val p x) (m : List (Part K)) (x : K) :
    valueAt val' (u.parts m) (u.a * x) = u.k * valueAt val m x := by
  unfold valueAt Change.parts
  induction m with
  | nil => simp
  | cons p m ih =>
    simp only [List.map_cons, List.sum_cons, mul_add]
    rw [hv, ih]

theorem fixedChanged_pars (hu : u.Sensible) (o : Owner K) : ∀ (l m : List K) (f : List Bool) (n : ℕ),
    fixedChanged (l.mapIdx (fun i x => u.w o (i + n) * x)) (m.mapIdx (fun i x => u.w o (i + n) * x)) f = fixedChanged l m f
  | [], [], _, _ => rfl
  | [], _ :: _, _, _ => by simp [fixedChanged]
  | _ :: _, [], _, _ => by simp [fixedChanged]
  | x :: l, y :: m, [], n => by simp [fixedChanged]
  | x :: l, y :: m, b :: f, n => by
    simp only [List.mapIdx_cons, fixedChanged]
    have h1 := fixedChanged_pars hu o l m f (n + 1)
    have e : ∀ i, i + 1 + n = i + (n + 1) := fun i => by omega
    simp only [e]
    rw [h1]
    have : (u.w o (0 + n) * x ≠ u.w o (0 + n) * y) ↔ (x ≠ y) := by
      simp [hu.w]
    simp only [this]

theorem scaleAt_part (hu : u.Sensible) (hs : ∀ p x s, sc' (u.part p) (u.a * x) s = (sc p x s).map (u.pars p.owner)) (p : Part K) (x s : K) :
    scaleAt sc' (u.part p) (u.a * x) s = ((scaleAt sc p x s).1, u.part (scaleAt sc p x s).2) := by
  unfold scaleAt
  rw [part_free, hs]
  split
  · rfl
  · cases h : sc p x s with
    | error e => cases e <;> rfl
    | ok adj =>
      simp only [Except.map]
      have : fixedChanged (u.part p).pars (u.pars p.owner adj) p.free = fixedChanged p.pars adj p.free := fixedChanged_pars hu p.owner _ _ _ 0
      rw [this]
      split <;> rfl

theorem firstAttempt_parts (hu : u.Sensible) (hC : Curves u val val' sc sc') (x s : K) : ∀ m : List (Part K),
    firstAttempt sc' val' (u.a * x) s (u.parts m) =
      ((firstAttempt sc val x s m).1.map (fun r => (r.1, u.k * r.2)), u.parts (firstAttempt sc val x s m).2)
  | [] => by simp [firstAttempt, Change.parts, Except.map]
  | p :: m => by
    have ih := firstAttempt_parts hu hC x s m
    show firstAttempt sc' val' (u.a * x) s (u.part p :: u.parts m) = _
    unfold firstAttempt
    rw [scaleAt_part hu hC.sc, ih]
    obtain ⟨r, p'⟩ := scaleAt sc p x s
    cases r with
    | error e => rfl
    | ok b =>
      obtain ⟨r, m'⟩ := firstAttempt sc val x s m
      cases r with
      | error e => rfl
      | ok r =>
        obtain ⟨bs, hh⟩ := r
        cases b with
        | true => rfl
        | false => simp [Except.map, hC.val, mul_add, Change.parts]

theorem matchAt_parts (hu : u.Sensible) (hC : Curves u val val' sc sc') (m : List (Part K)) (x y : K) :
    matchAt sc' val' (u.parts m) (u.a * x) (u.k * y) = ((matchAt sc val m x y).1, u.parts (matchAt sc val m x y).2) := by
  have hk := hu.k
  unfold matchAt
  simp only
  rw [valueAt_parts hC.val, mul_div_mul_left _ _ hk.ne']
  have h0 : u.k * valueAt val m x = 0 ↔ valueAt val m x = 0 := by simp [hk.ne']
  by_cases hz : valueAt val m x = 0
  · rw [if_pos hz, if_pos (h0.2 hz)]
  rw [if_neg hz, if_neg (fun h => hz (h0.1 h)), firstAttempt_parts hu hC]
  obtain ⟨r, m'⟩ := firstAttempt sc val x (y / valueAt val m x) m
  cases r with
  | error e => rfl
  | ok r =>
    obtain ⟨scaled, fh⟩ := r
    simp only [Except.map, mul_lt_mul_iff_right₀ hk]
    split
    · rw [← mul_sub, ← mul_sub, mul_div_mul_left _ _ hk.ne']
      match m, scaled with
      | [], _ => rfl
      | [_], _ => rfl
      | _ :: _ :: _ :: _, _ => rfl
      | [_, _], [] => rfl
      | [_, _], [_] => rfl
      | [_, _], _ :: _ :: _ :: _ => rfl
      | [p0, p1], [b, s1] =>
        show (match (if (u.part p1).pars.length = 0 then (.ok false, u.part p0) else scaleAt sc' (u.part p0) (u.a * x) _ : Res Bool × Part K) with
          | (.error _, p0') => (false, [p0', u.part p1])
          | (.ok any, p0') => if s1 then (false, [p0', u.part p1]) else (any, [p0', u.part p1])) = _
        have e : (u.part p1).pars.length = p1.pars.length := pars_length _ _
        rw [e, scaleAt_part hu hC.sc]
        by_cases hl : p1.pars.length = 0
        · simp only [if_pos hl]
          cases s1 <;> rfl
        · simp only [if_neg hl]
          obtain ⟨r, q⟩ := scaleAt sc p0 x ((y - fh) / (valueAt val [p0, p1] x - fh))
          cases r with
          | error e => rfl
          | ok b => cases s1 <;> rfl
    · rfl

/-! ### Slices and copies -/

theorem all_neg {t : K} (ht : 0 < t) (l : List K) :
    (l.map (fun v => t * v)).all (fun v => decide (v < 0)) = l.all (fun v => decide (v < 0)) := by
  rw [List.all_map]
  congr 1
  funext v
  have : t * v < 0 ↔ v < 0 := by
    constructor
    · intro h; by_contra hn; exact absurd h (not_lt.2 (mul_nonneg ht.le (not_lt.1 hn)))
    · intro h; exact mul_neg_of_pos_of_neg ht h
  simp [this]

theorem maxNeg_ys (hu : u.Sensible) (l : List K) : maxNeg (u.ys l) = maxNeg l := by
  unfold maxNeg
  have : u.ys l = [] ↔ l = [] := List.map_eq_nil_iff
  simp only [this]
  split
  · rfl
  · rw [show (u.ys l).all (fun v => decide (v < 0)) = l.all (fun v => decide (v < 0)) from all_neg hu.k l]

theorem getSlice_ys (l : List K) (s : Option (ℕ × ℕ)) : getSlice (u.ys l) s = u.ys (getSlice l s) := getSlice_map _ _ _

theorem getSlice_xs (l : List K) (s : Option (ℕ × ℕ)) : getSlice (u.xs l) s = u.xs (getSlice l s) := getSlice_map _ _ _

theorem get_ys (s : Slice) (l : List K) : s.get (u.ys l) = u.ys (s.get l) := getSlice_map _ _ _

theorem get_xs (s : Slice) (l : List K) : s.get (u.xs l) = u.xs (s.get l) := getSlice_map _ _ _

theorem updateNever_ys (hu : u.Sensible) (ex : List K) (never : Bool) (old : Option Slice) (new : Slice) :
    updateNever (u.ys ex) never old new = updateNever ex never old new := by
  unfold updateNever
  cases old with
  | none => simp only; rw [get_ys, maxNeg_ys hu]
  | some old =>
    simp only [getSlice_ys, maxNeg_ys hu]

theorem changeSlice_units (hu : u.Sensible) (ex : List K) (c : Cluster K) (new : Slice) :
    changeSlice (u.ys ex) (u.cluster c) new = ((changeSlice ex c new).1, u.cluster (changeSlice ex c new).2) := by
  unfold changeSlice
  rw [updateNever_ys hu]
  have i1 : (u.cluster c).neverFit = c.neverFit := rfl
  have i2 : (u.cluster c).slice = c.slice := rfl
  rw [i1, i2]
  cases updateNever ex c.neverFit c.slice new <;> rfl

theorem size_units (c : Cluster K) : (u.cluster c).size = c.size := by
  unfold Cluster.size
  show (match c.slice with | none => 0 | some s => (s.get (u.xs c.r)).length) = _
  cases c.slice with
  | none => rfl
  | some s => simp only; rw [get_xs]; simp [Change.xs]

/-! ### Fits -/

theorem launch_units (hu : u.Sensible) {E E' : Env K} (h : EnvAlike u E E') (o : Opts) (c : Cluster K) :
    launch E' o (u.cluster c) = ((launch E o c).1, u.parts (launch E o c).2.1, (launch E o c).2.2.map u.part) ∧
    fitBaseline o (u.cluster c) = (fitBaseline o c).map u.part := by
  have hb : fitBaseline o (u.cluster c) = (fitBaseline o c).map u.part := by
    unfold fitBaseline
    show (match c.baseline.map u.part with
      | some b => if o.fitbaseline ∧ 0 < b.npars false then some b else none
      | none => none) = _
    cases c.baseline with
    | none => rfl
    | some b =>
      simp only [Option.map_some, part_npars hu]
      split <;> rfl
  refine ⟨?_, hb⟩
  unfold launch
  rw [hb]
  cases fitBaseline o c with
  | none =>
    show ((E'.lsq (u.parts c.model)).1, (E'.lsq (u.parts c.model)).2, c.baseline.map u.part) = _
    rw [h.lsq]
  | some b =>
    show ((E'.lsq (u.parts c.model ++ u.parts [b])).1, (E'.lsq (u.parts c.model ++ u.parts [b])).2.dropLast,
      (E'.lsq (u.parts c.model ++ u.parts [b])).2.getLast?) = _
    rw [← parts_append, h.lsq]
    simp [Change.parts, List.map_dropLast]

theorem fitCore_units (hu : u.Sensible) {E E' : Env K} (h : EnvAlike u E E') (o : Opts) (c : Cluster K) :
    fitCore E' o (u.cluster c) = ((fitCore E o c).1, u.cluster (fitCore E o c).2.1, u.parts (fitCore E o c).2.2) := by
  obtain ⟨h1, h2⟩ := launch_units hu h o c
  unfold fitCore
  simp only
  rw [h1, h2, size_units]
  generalize launch E o c = L
  obtain ⟨r, m0, bl⟩ := L
  cases r with
  | error e => cases e <;> rfl
  | ok r =>
    simp only
    rw [sort_parts hu h.as, h.clean, h.quality]
    have : E'.quality (u.cluster c).model (u.cluster c).baseline = E.quality c.model c.baseline := h.quality _ _
    rw [this, h.growth, parts_length]
    have hl : (u.cluster c).model.length = c.model.length := parts_length _
    rw [hl]
    cases Evaluator.lt (E.quality (E.clean (sort E.as false pos m0)) bl) (E.quality c.model c.baseline) with
    | error e => cases fitBaseline o c <;> rfl
    | ok b =>
      cases b with
      | true => cases fitBaseline o c <;> rfl
      | false =>
        simp only
        cases fitBaseline o c <;> (simp only [Option.map_some, Option.map_none]; split <;> rfl)

theorem estimatepeak_units (hu : u.Sensible) {E E' : Env K} (h : EnvAlike u E E') (m : List (Part K)) :
    estimatepeak E' (u.parts m) = ((estimatepeak E m).1, u.parts (estimatepeak E m).2) := by
  unfold estimatepeak
  rw [h.estimate]
  cases E.estimate with
  | error e => rfl
  | ok p =>
    cases p with
    | none => rfl
    | some p =>
      simp only [Except.map, Option.map_some]
      have e : replacepeaks E'.as (u.parts m) [u.part p] 0 0 = _ := replacepeaks_parts hu h.as m [p] 0 0
      rw [e]
      generalize replacepeaks E.as m [p] 0 0 = R
      obtain ⟨r, m'⟩ := R
      cases r <;> rfl

theorem fit_units (hu : u.Sensible) {E E' : Env K} (h : EnvAlike u E E') (o : Opts) (c : Cluster K) :
    ModelCluster.fit E' o (u.cluster c) =
      ((ModelCluster.fit E o c).1, u.cluster (ModelCluster.fit E o c).2.1, u.parts (ModelCluster.fit E o c).2.2) := by
  unfold ModelCluster.fit
  have hm : (u.cluster c).model = [] ↔ c.model = [] := parts_nil
  have hn : (u.cluster c).neverFit = c.neverFit := rfl
  rw [hn]
  by_cases h1 : c.neverFit = true
  · rw [if_pos h1, if_pos h1]; rfl
  rw [if_neg h1, if_neg h1]
  by_cases h2 : c.model = []
  · rw [if_pos h2, if_pos (hm.2 h2)]
    by_cases h3 : o.estimate = true
    · rw [if_pos h3, if_pos h3]
      have : estimatepeak E' (u.cluster c).model = ((estimatepeak E c.model).1, u.parts (estimatepeak E c.model).2) := estimatepeak_units hu h _
      rw [this]
      generalize estimatepeak E c.model = R
      obtain ⟨r, m⟩ := R
      cases r with
      | error e => cases e <;> rfl
      | ok b => exact fitCore_units hu h o { c with model := m }
    · rw [if_neg h3, if_neg h3]; rfl
  · rw [if_neg h2, if_neg (fun h => h2 (hm.1 h))]
    exact fitCore_units hu h o c

theorem contingentFit_units (hu : u.Sensible) {E E' : Env K} (h : EnvAlike u E E') (c : Cluster K) (mp : ℕ) (g : K) :
    contingentFit E' (u.cluster c) mp g =
      ((contingentFit E c mp g).1, u.cluster (contingentFit E c mp g).2.1, u.parts (contingentFit E c mp g).2.2) := by
  unfold contingentFit
  rw [size_units]
  have hn : (u.cluster c).neverFit = c.neverFit := rfl
  have hl : (u.cluster c).lastFit = c.lastFit := rfl
  rw [hn, hl]
  split
  · rfl
  · split
    · exact fit_units hu h _ c
    · rfl

theorem reduceTo_units (hu : u.Sensible) {E E' : Env K} (h : EnvAlike u E E') (hC : Curves u val val' sc sc') (blx : K) (c : Cluster K) (x y : K) :
    reduceTo E' sc' val' (u.k * blx) (u.cluster c) (u.a * x) (u.k * y) =
      ((reduceTo E sc val blx c x y).1, u.cluster (reduceTo E sc val blx c x y).2) := by
  unfold reduceTo
  have h1 : valueAt val' (u.cluster c).model (u.a * x) = u.k * valueAt val c.model x := valueAt_parts hC.val _ _
  rw [h1]
  simp only [mul_lt_mul_iff_right₀ hu.k]
  by_cases h2 : valueAt val c.model x < y
  · rw [if_pos h2, if_pos h2]
  rw [if_neg h2, if_neg h2, ← mul_sub]
  have h3 : (matchAt sc' val' (u.cluster c).model (u.a * x) (u.k * (y - blx))).2 = u.parts (matchAt sc val c.model x (y - blx)).2 := by
    have := matchAt_parts hu hC c.model x (y - blx)
    show (matchAt sc' val' (u.parts c.model) _ _).2 = _
    rw [this]
  rw [h3]
  have h4 := fit_units hu h {} { c with model := (matchAt sc val c.model x (y - blx)).2 }
  have h5 : ModelCluster.fit E' {} { u.cluster c with model := u.parts (matchAt sc val c.model x (y - blx)).2 } = _ := h4
  rw [h5]
  generalize ModelCluster.fit E {} { c with model := (matchAt sc val c.model x (y - blx)).2 } = R
  obtain ⟨r, c', l⟩ := R
  cases r with
  | error e => rfl
  | ok q =>
    cases q with
    | none => rfl
    | some q =>
      have hg : E'.growth (u.cluster c').model (u.cluster c').baseline = E.growth c'.model c'.baseline := h.growth _ _
      simp only
      rw [hg]
      split <;> rfl

/-! ### Joining -/

theorem map_eraseIdx {α β : Type} (f : α → β) (l : List α) (i : ℕ) : (l.map f).eraseIdx i = (l.eraseIdx i).map f := by
  rw [List.eraseIdx_map]

theorem dedupLoop_parts (hu : u.Sensible) (b : K) : ∀ (i : ℕ) (m : List (Part K)),
    dedupLoop (u.a * b) i (u.parts m) = u.parts (dedupLoop b i m)
  | 0, _ => rfl
  | i + 1, m => by
    have e : ∀ k : ℕ, (((u.parts m)[k]?.map (fun p => decide (pos p = u.a * b))).getD false) =
        ((m[k]?.map (fun p => decide (pos p = b))).getD false) := by
      intro k
      simp only [Change.parts, List.getElem?_map]
      cases m[k]? with
      | none => rfl
      | some p =>
        simp only [Option.map_some, Option.getD_some, pos_part hu]
        have : u.a * pos p = u.a * b ↔ pos p = b := by simp [hu.a.ne']
        simp only [this]
    unfold dedupLoop
    simp only [e]
    rw [← dedupLoop_parts hu b i]
    congr 1
    split
    · exact map_eraseIdx _ _ _
    · rfl

theorem joinedModel_parts (hu : u.Sensible) (hC : Curves u val val' sc sc') {as as' : List K → List ℕ} (h : ∀ l, as' (u.xs l) = as l)
    (bx by_ : K) (m1 m2 l r : List (Part K)) :
    joinedModel as' sc' val' (u.a * bx) (u.k * by_) (u.parts m1) (u.parts m2) (u.parts l) (u.parts r) =
      u.parts (joinedModel as sc val bx by_ m1 m2 l r) := by
  unfold joinedModel
  simp only [parts_length]
  split
  · unfold joinModels
    simp only
    rw [← parts_append, argsort_parts hu h]
    have e : (argsort as pos (l ++ r)).filterMap (fun i => (u.parts (l ++ r))[i]?) =
        u.parts ((argsort as pos (l ++ r)).filterMap (fun i => (l ++ r)[i]?)) := filterMap_parts _ _ _
    rw [e, parts_length, dedupLoop_parts hu, matchAt_parts hu hC]
  · split <;> rfl

theorem joinTail_units (hu : u.Sensible) (hC : Curves u val val' sc sc') {as as' : List K → List ℕ} (h : ∀ l, as' (u.xs l) = as l)
    (ex : List K) (m1 m2 l r : Cluster K) (li ri : ℕ × ℕ) :
    joinTail as' sc' val' (u.ys ex) (u.cluster m1) (u.cluster m2) (u.cluster l) (u.cluster r) li ri =
      (joinTail as sc val ex m1 m2 l r li ri).map u.cluster := by
  have ex_ : ∀ (c : Cluster K) (i : ℕ), (u.cluster c).r[i]? = c.r[i]?.map (fun v => u.a * v) := by
    intro c i; simp [Change.cluster, Change.xs]
  have ey_ : ∀ (c : Cluster K) (i : ℕ), (u.cluster c).y[i]? = c.y[i]?.map (fun v => u.k * v) := by
    intro c i; simp [Change.cluster, Change.ys]
  unfold joinTail
  rw [ex_, ex_, ey_, ey_]
  cases l.r[li.2 - 1]? with
  | none => rfl
  | some xl =>
    cases r.r[ri.1]? with
    | none => rfl
    | some xr =>
      cases l.y[li.2 - 1]? with
      | none => rfl
      | some yl =>
        cases r.y[ri.1]? with
        | none => rfl
        | some yr =>
          simp only [Option.map_some]
          have e1 : (u.a * xl + u.a * xr) / 2 = u.a * ((xl + xr) / 2) := by ring
          have e2 : (u.k * yl + u.k * yr) / 2 = u.k * ((yl + yr) / 2) := by ring
          rw [e1, e2]
          have e3 : joinedModel as' sc' val' (u.a * ((xl + xr) / 2)) (u.k * ((yl + yr) / 2)) (u.cluster m1).model (u.cluster m2).model
              (u.cluster l).model (u.cluster r).model = u.parts (joinedModel as sc val ((xl + xr) / 2) ((yl + yr) / 2) m1.model m2.model l.model r.model) :=
            joinedModel_parts hu hC h _ _ _ _ _ _
          rw [e3]
          have e4 := changeSlice_units hu ex
            { m1 with
              model := joinedModel as sc val ((xl + xr) / 2) ((yl + yr) / 2) m1.model m2.model l.model r.model, slice := none, lastFit := 0,
              neverFit := false, funcs := (m1.funcs ++ m2.funcs).dedup } ⟨some li.1, ri.2⟩
          have e5 : changeSlice (u.ys ex)
            { u.cluster m1 with
              model := u.parts (joinedModel as sc val ((xl + xr) / 2) ((yl + yr) / 2) m1.model m2.model l.model r.model), slice := none, lastFit := 0,
              neverFit := false, funcs := ((u.cluster m1).funcs ++ (u.cluster m2).funcs).dedup } ⟨some li.1, ri.2⟩ = _ := e4
          rw [e5]
          generalize changeSlice ex _ _ = R
          obtain ⟨q, c⟩ := R
          cases q <;> rfl

theorem joinAdjacent_units (hu : u.Sensible) (hC : Curves u val val' sc sc') {as as' : List K → List ℕ} (h : ∀ l, as' (u.xs l) = as l)
    {eqv eqv' : Option (Part K) → Option (Part K) → Bool} (he : ∀ b b', eqv' (b.map u.part) (b'.map u.part) = eqv b b')
    (ex : List K) (m1 m2 : Cluster K) :
    joinAdjacent as' eqv' sc' val' (u.ys ex) (u.cluster m1) (u.cluster m2) = (joinAdjacent as eqv sc val ex m1 m2).map u.cluster := by
  unfold joinAdjacent
  have hb : eqv' (u.cluster m1).baseline (u.cluster m2).baseline = eqv m1.baseline m2.baseline := he _ _
  have hr : (u.cluster m1).r.length = m1.r.length := by simp [Change.cluster, Change.xs]
  rw [hb, hr]
  have i1 : (u.cluster m1).rId = m1.rId := rfl
  have i2 : (u.cluster m2).rId = m2.rId := rfl
  have i3 : (u.cluster m1).yId = m1.yId := rfl
  have i4 : (u.cluster m2).yId = m2.yId := rfl
  have i5 : (u.cluster m1).eId = m1.eId := rfl
  have i6 : (u.cluster m2).eId = m2.eId := rfl
  have i7 : (u.cluster m1).method = m1.method := rfl
  have i8 : (u.cluster m2).method = m2.method := rfl
  have i9 : (u.cluster m1).slice = m1.slice := rfl
  have i10 : (u.cluster m2).slice = m2.slice := rfl
  rw [i1, i2, i3, i4, i5, i6, i7, i8, i9, i10]
  split
  · rfl
  split
  · rfl
  split
  · rfl
  split
  · rfl
  split
  · rfl
  cases m1.slice with
  | none => rfl
  | some s1 =>
    cases m2.slice with
    | none => rfl
    | some s2 =>
      simp only
      by_cases hlt : (s1.indices m1.r.length).1 < (s2.indices m1.r.length).1
      · rw [if_pos hlt, if_pos hlt]
        simp only
        split
        · rfl
        · exact joinTail_units hu hC h ex m1 m2 m1 m2 _ _
      · rw [if_neg hlt, if_neg hlt]
        simp only
        split
        · rfl
        · exact joinTail_units hu hC h ex m1 m2 m2 m1 _ _

end Verif.Parts.Units
