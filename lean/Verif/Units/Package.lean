import Verif.Units.Code
import Verif.Units.Peaks
import Verif.Package.Model

/-!
# C104: extraction with the peak functions of the package, in other units

The user multiplies coordinates by `a` and intensities by `k`, and makes every peak function anew with its maximum width in the new unit.
-/

set_option linter.unusedSectionVars false

namespace Verif.Parts.Units

open Verif.Py Verif.PeakList Verif.Parts.ModelCluster Verif.Parts.Extract Verif.Extraction Verif.Parts.Package

/-- The parameters of a peak function of the package. -/
def peakDict : List (String × ℕ) := [("position", 0), ("width", 1), ("area", 2)]

/-- The same classes, maximum widths in the new unit. -/
noncomputable def table (a : ℝ) (T : Table) : Table := fun i => ((T i).1, a * (T i).2)

/-- The units of position, internal width, area. -/
def peakUnit (s : Peaks.Shape) (a k : ℝ) : ℕ → ℝ
  | 0 => a
  | 1 => 1
  | _ => Peaks.areaUnit s a k

/-- The numerics `N` with the functions of the package; what has not the parameters of a peak function of the package is scaled by `N`.  (A
NaN is 0, a number that all units have in common.) -/
noncomputable def inPackage (T : Table) (N : Numerics ℝ) : Numerics ℝ :=
  { packaged 0 T N with sc := fun p x s => if p.owner.dict = peakDict then scaled 0 T p x s else N.sc p x s }

/-- A function that has in the new units the graph that `o` has in the old ones. -/
noncomputable def moved (a k : ℝ) (w : ℕ → ℝ) (o : Owner ℝ) : Owner ℝ :=
  { o with
    rawValue := fun v r => (o.rawValue (v.mapIdx (fun i x => (w i)⁻¹ * x)) (r.map (fun x => a⁻¹ * x))).map (fun y => k * y)
    rawJac := fun v r f => (o.rawJac (v.mapIdx (fun i x => (w i)⁻¹ * x)) (r.map (fun x => a⁻¹ * x)) f).mapIdx
      (fun i row => row.map (List.map (fun y => k * (w i)⁻¹ * y)))
    transform := fun v i p => (o.transform (v.mapIdx (fun i x => (w i)⁻¹ * x)) i p).map (fun q => q.mapIdx (fun i x => w i * x)) }

open Classical in
/-- The change of units: `wo` are the units of the parameters of other functions (baselines), by identity and parameter dictionary. -/
noncomputable def change (a k : ℝ) (T : Table) (wo : ℕ → List (String × ℕ) → ℕ → ℝ) : Change ℝ where
  a := a
  k := k
  w o i := if o.dict = peakDict then peakUnit (T o.id).1 a k i else wo o.id o.dict i
  fn o := if o = function 0 o.id (T o.id) then function 0 o.id (table a T o.id)
    else moved a k (fun i => if o.dict = peakDict then peakUnit (T o.id).1 a k i else wo o.id o.dict i) o

/-- The rest of the numerics is the same in both units: sorting, the evaluators, the optimiser. -/
structure RestAlike (u : Change ℝ) (N N' : Numerics ℝ) : Prop where
  as : ∀ l, N'.as (u.xs l) = N.as l
  asY : ∀ l, N'.as (u.ys l) = N.as l
  pick : ∀ l, N'.pick l = N.pick l
  kind : ∀ e, N'.kind e = N.kind e
  float : ∀ v, N.trunc v = v
  float' : ∀ v, N'.trunc v = v
  sc : ∀ p x s, p.owner.dict ≠ peakDict → N'.sc (u.part p) (u.a * x) s = (N.sc p x s).map (u.pars p.owner)
  opt : ∀ c m, N'.opt (u.cluster c) (u.parts m) = (u.run m (N.opt c m).1, u.run m (N.opt c m).2)
  packed : ∀ c m, Packed m (N.opt c m).1 ∧ Packed m (N.opt c m).2

/-- Units of the parameters of other functions that make sense. -/
structure OtherUnits (a : ℝ) (wo : ℕ → List (String × ℕ) → ℕ → ℝ) : Prop where
  ne : ∀ f d i, wo f d i ≠ 0
  position : ∀ f (d : List (String × ℕ)) kv, d.find? (fun kv => kv.1 == "position") = some kv → wo f d kv.2 = a

variable {a k : ℝ} {T : Table} {wo : ℕ → List (String × ℕ) → ℕ → ℝ}

theorem peakUnit_ne (s : Peaks.Shape) (ha : 0 < a) (hk : 0 < k) (i : ℕ) : peakUnit s a k i ≠ 0 := by
  match i with
  | 0 => exact ha.ne'
  | 1 => exact one_ne_zero
  | _ + 2 => exact (Peaks.areaUnit_pos s ha hk).ne'

theorem change_sensible (ha : 0 < a) (hk : 0 < k) (hw : OtherUnits a wo) : (change a k T wo).Sensible where
  a := ha
  k := hk
  w o i := by
    show (if o.dict = peakDict then _ else _) ≠ (0 : ℝ)
    split
    · exact peakUnit_ne _ ha hk i
    · exact hw.ne _ _ _
  id o := by
    simp only [change]
    split <;> rfl
  npars o := by
    simp only [change]
    split
    · rename_i h; rw [h]; rfl
    · rfl
  dict o := by
    simp only [change]
    split
    · rename_i h; rw [h]; rfl
    · rfl
  position o kv h := by
    simp only [change]
    split
    · rename_i hd
      rw [hd] at h
      have : kv = ("position", 0) := by
        have e : peakDict.find? (fun kv => kv.1 == "position") = some ("position", 0) := by decide
        rw [e] at h
        exact (Option.some.inj h).symm
      rw [this]
      rfl
    · exact hw.position _ _ _ h

theorem unscale (w : ℕ → ℝ) (hw : ∀ i, w i ≠ 0) (v : List ℝ) : (v.mapIdx (fun i x => w i * x)).mapIdx (fun i x => (w i)⁻¹ * x) = v := by
  refine List.ext_getElem (by simp) (fun i h1 h2 => ?_)
  simp [hw i]

theorem three_units (s : Peaks.Shape) (v : List ℝ) :
    three (v.mapIdx (fun i x => peakUnit s a k i * x)) = (three v).inUnits a (Peaks.areaUnit s a k) := by
  unfold three Peaks.P.inUnits
  match v with
  | [] => simp
  | [x] => simp [peakUnit]
  | [x, y] => simp [peakUnit]
  | x :: y :: z :: rest => simp [peakUnit, List.mapIdx_cons]

theorem orNan_units (s : Peaks.Shape) (r : Res (Option Peaks.P)) :
    orNan 0 (r.map (Option.map (Peaks.P.inUnits a (Peaks.areaUnit s a k)))) = (orNan 0 r).map (fun v => v.mapIdx (fun i x => peakUnit s a k i * x)) := by
  cases r with
  | error e => rfl
  | ok q =>
    cases q with
    | none => simp [orNan, Except.map, List.mapIdx_cons]
    | some q => simp [orNan, Except.map, List.mapIdx_cons, peakUnit, Peaks.P.inUnits]

theorem rawTransform_units (s : Peaks.Shape) (ha : 0 < a) (hk : 0 < k) (mw : ℝ) (v : List ℝ) :
    rawTransform 0 (a * mw) (v.mapIdx (fun i x => peakUnit s a k i * x)) "internal" "internal" =
      (rawTransform 0 mw v "internal" "internal").map (fun v => v.mapIdx (fun i x => peakUnit s a k i * x)) := by
  match v with
  | [] => rfl
  | [x] => rfl
  | [x, y] => rfl
  | x :: y :: z :: rest =>
    have e := Peaks.c104_peak_transform (a := a) (b := Peaks.areaUnit s a k) ha (Peaks.areaUnit_pos s ha hk) mw ⟨x, y, z⟩ "internal" "internal"
    have e' : Peaks.transform (a * mw) ⟨a * x, y, Peaks.areaUnit s a k * z⟩ "internal" "internal" = _ := e
    simp only [List.mapIdx_cons, rawTransform, peakUnit, one_mul]
    rw [e']
    cases Peaks.transform mw ⟨x, y, z⟩ "internal" "internal" with
    | error e => rfl
    | ok q =>
      cases q with
      | none => simp [Except.map, List.mapIdx_cons, peakUnit]
      | some q => simp [Except.map, List.mapIdx_cons, peakUnit, Peaks.P.units, Peaks.P.inUnits]

theorem fn_function (i : ℕ) : (change a k T wo).fn (function 0 i (T i)) = function 0 i (table a T i) := by
  unfold change
  simp only
  rw [if_pos (show function 0 i (T i) = function 0 (function 0 i (T i)).id (T (function 0 i (T i)).id) from rfl)]
  rfl

theorem pars_peak {o : Owner ℝ} (h : o.dict = peakDict) (v : List ℝ) :
    (change a k T wo).pars o v = v.mapIdx (fun i x => peakUnit (T o.id).1 a k i * x) := by
  unfold Change.pars
  congr 1
  funext i x
  simp only [change]
  rw [if_pos h]

theorem transform_function (ha : 0 < a) (hk : 0 < k) (i : ℕ) (v : List ℝ) :
    (function 0 i (table a T i)).transform (v.mapIdx (fun j x => peakUnit (T i).1 a k j * x)) (some "internal") (some "internal") =
      ((function 0 i (T i)).transform v (some "internal") (some "internal")).map (fun v => v.mapIdx (fun j x => peakUnit (T i).1 a k j * x)) := by
  have e : ∀ (mw : ℝ) (l : List ℝ), Function.transformParameters formats (rawTransform 0 mw) l (some "internal") (some "internal") =
      rawTransform 0 mw l "internal" "internal" := by
    intro mw l
    unfold Function.transformParameters
    have h1 : Function.resolveIn formats (some "internal") = "internal" := by decide
    have h2 : Function.resolveOut formats (some "internal") = "internal" := by decide
    rw [h1, h2, if_neg (by decide), if_neg (by decide)]
  have e1 : (function 0 i (table a T i)).transform = Function.transformParameters formats (rawTransform 0 (a * (T i).2)) := rfl
  have e2 : (function 0 i (T i)).transform = Function.transformParameters formats (rawTransform 0 (T i).2) := rfl
  rw [e1, e2, e, e]
  exact rawTransform_units (T i).1 ha hk (T i).2 v

/-- **The functions of the package in new units.** -/
theorem package_alike (ha : 0 < a) (hk : 0 < k) (hw : OtherUnits a wo) {N N' : Numerics ℝ} (h : RestAlike (change a k T wo) N N') :
    NumericsAlike (change a k T wo) (inPackage T N) (inPackage (table a T) N') where
  as := h.as
  asY := h.asY
  pick := h.pick
  kind := h.kind
  float := h.float
  float' := h.float'
  opt := h.opt
  packed := h.packed
  func i := (fn_function i).symm
  same o o' h1 h2 := by
    funext i
    simp only [change]
    rw [h1, h2]
  val p x := by
    have hu := change_sensible (T := T) ha hk hw
    show ((((change a k T wo).fn p.owner).rawValue ((change a k T wo).pars p.owner p.pars) [a * x]).headD 0) = k * (p.owner.rawValue p.pars [x]).headD 0
    by_cases hp : p.owner = function 0 p.owner.id (T p.owner.id)
    · have hd : p.owner.dict = peakDict := by rw [hp]; rfl
      rw [pars_peak hd]
      have e1 : (change a k T wo).fn p.owner = function 0 p.owner.id (table a T p.owner.id) := by
        simp only [change]
        rw [if_pos hp]
      rw [e1]
      have e2 : p.owner.rawValue p.pars [x] = [Peaks.value (T p.owner.id).1 (T p.owner.id).2 (three p.pars) x] := by
        conv_lhs => rw [hp]
        rfl
      rw [e2]
      show Peaks.value (T p.owner.id).1 (a * (T p.owner.id).2) (three _) (a * x) = k * Peaks.value _ _ _ x
      rw [three_units, Peaks.c104_peak_value _ ha hk]
    · have e1 : (change a k T wo).fn p.owner = moved a k ((change a k T wo).w p.owner) p.owner := by
        simp only [change]
        rw [if_neg hp]
      rw [e1]
      show ((p.owner.rawValue (((change a k T wo).pars p.owner p.pars).mapIdx (fun i x => ((change a k T wo).w p.owner i)⁻¹ * x)) ([a * x].map (fun x => a⁻¹ * x))).map
        (fun y => k * y)).headD 0 = _
      have e2 : ((change a k T wo).pars p.owner p.pars).mapIdx (fun i x => ((change a k T wo).w p.owner i)⁻¹ * x) = p.pars := unscale _ (hu.w p.owner) _
      have e3 : [a * x].map (fun x => a⁻¹ * x) = [x] := by
        simp [ha.ne']
      rw [e2, e3]
      cases p.owner.rawValue p.pars [x] <;> simp
  sc p x s := by
    have hd' : ((change a k T wo).part p).owner.dict = p.owner.dict := (change_sensible (T := T) ha hk hw).dict _
    show (if ((change a k T wo).part p).owner.dict = peakDict then _ else _) = Except.map _ (if p.owner.dict = peakDict then _ else _)
    rw [hd']
    by_cases hd : p.owner.dict = peakDict
    · rw [if_pos hd, if_pos hd]
      have hid : ((change a k T wo).part p).owner.id = p.owner.id := (change_sensible (T := T) ha hk hw).id _
      have hpp : ((change a k T wo).part p).pars = p.pars.mapIdx (fun i x => peakUnit (T p.owner.id).1 a k i * x) := pars_peak hd _
      have hpf : (change a k T wo).pars p.owner = fun v => v.mapIdx (fun i x => peakUnit (T p.owner.id).1 a k i * x) := funext (pars_peak hd)
      unfold scaled
      rw [hid, hpp, hpf]
      match p.pars with
      | [] => rfl
      | [b] => rfl
      | [b, c] => rfl
      | b :: c :: d :: e :: rest => simp only [List.mapIdx_cons]; rfl
      | [b, c, d] =>
        have e0 : [b, c, d].mapIdx (fun i x => peakUnit (T p.owner.id).1 a k i * x) = [a * b, c, Peaks.areaUnit (T p.owner.id).1 a k * d] := by
          simp [List.mapIdx_cons, peakUnit]
        rw [e0]
        simp only
        rw [← orNan_units (T p.owner.id).1]
        congr 1
        unfold scaleOf
        have e1 : (table a T p.owner.id).1 = (T p.owner.id).1 := rfl
        have e2 : (table a T p.owner.id).2 = a * (T p.owner.id).2 := rfl
        rw [e1, e2]
        cases hs : (T p.owner.id).1 with
        | gaussian =>
          have := Peaks.scaleGaussian_units (a := a) (b := Peaks.areaUnit .gaussian a k) ha (Peaks.areaUnit_pos .gaussian ha hk) (T p.owner.id).2 ⟨b, c, d⟩ x s
          exact this
        | overR => exact Peaks.scaleOverR_units (a := a) (k := k) ha hk (T p.owner.id).2 ⟨b, c, d⟩ x s
    · rw [if_neg hd, if_neg hd]
      exact h.sc p x s hd
  guess i r y := by
    show estimated 0 (table a T) ((change a k T wo).fn (function 0 i (T i))) _ _ = (estimated 0 T (function 0 i (T i)) r y).map ((change a k T wo).pars (function 0 i (T i)))
    have hpf : (change a k T wo).pars (function 0 i (T i)) = fun v => v.mapIdx (fun j x => peakUnit (T i).1 a k j * x) := funext (fun v => pars_peak rfl v)
    rw [fn_function, hpf]
    unfold estimated
    rw [← orNan_units (T i).1]
    congr 1
    exact Peaks.c104_peak_estimate (T i).1 ha hk (T i).2 r y
  transform o v := by
    have hu := change_sensible (T := T) ha hk hw
    by_cases hp : o = function 0 o.id (T o.id)
    · have e1 : (change a k T wo).fn o = function 0 o.id (table a T o.id) := by
        simp only [change]
        rw [if_pos hp]
      have hd : o.dict = peakDict := by rw [hp]; rfl
      have hpf : (change a k T wo).pars o = fun v => v.mapIdx (fun j x => peakUnit (T o.id).1 a k j * x) := funext (fun v => pars_peak hd v)
      rw [e1, hpf]
      have := transform_function (T := T) ha hk o.id v
      rw [← hp] at this
      exact this
    · have e1 : (change a k T wo).fn o = moved a k ((change a k T wo).w o) o := by
        simp only [change]
        rw [if_neg hp]
      rw [e1]
      show (o.transform (((change a k T wo).pars o v).mapIdx (fun i x => ((change a k T wo).w o i)⁻¹ * x)) (some "internal") (some "internal")).map _ = _
      have e2 : ((change a k T wo).pars o v).mapIdx (fun i x => ((change a k T wo).w o i)⁻¹ * x) = v := unscale _ (hu.w o) _
      rw [e2]
      rfl

end Verif.Parts.Units
