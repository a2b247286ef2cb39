import Verif.Multimodel.Rank

/-!
# Model of the object `MultimodelSelection`: its state, the methods that fill it and the queries that read it

`src/diffpy/srmise/multimodelselection.py`.  A dictionary keyed by the uncertainty is a function to `Option`: `none`
is a missing key.  A method that raises leaves the object as it is at that point: methods return the new state together
with the outcome.  `R` are the results of `PeakStability.run`, `D` the uncertainties.
-/

namespace Verif.Multimodel

open Verif.Py

variable {R D : Type} [DecidableEq D]

/-- `d[k] = v`. -/
def setKey {α : Type} (d : D → Option α) (k : D) (v : α) : D → Option α := fun j => if j = k then some v else d j

/-- `d[k]`. -/
def look {α : Type} (d : D → Option α) (k : D) : Res α :=
  match d k with
  | none => .error .key
  | some v => .ok v

/-- `l[i]` for `i ≥ 0`. -/
def nth {α : Type} (l : List α) (i : ℕ) : Res α :=
  match l[i]? with
  | none => .error .index
  | some v => .ok v

/-- `for k in keys: d[k] = f(k)`: stops at the first exception, what was stored stays. -/
def fill {α : Type} (f : D → Res α) : List D → (D → Option α) → (D → Option α) × Res Unit
  | [], d => (d, .ok ())
  | k :: ks, d =>
    match f k with
    | .error e => (d, .error e)
    | .ok v => fill f ks (setKey d k v)

/-- `self.aics[dg]`: a list of evaluators, seen through `stat`; after `loadaics` (`raw`) a list of numbers. -/
structure Aics where
  raw : Bool
  stats : List ℝ

/-- The attributes — multimodelselection.py:41-61; `results` is inherited (peakstability.py:34-37).  Simplification:
`dgs_idx` and `class_tolerance` are written and never read. -/
structure State (R D : Type) where
  results : List R
  dgs : List D
  classes : List (List ℕ)
  classesIdx : List (ℕ × ℕ)
  aics : D → Option Aics
  aicweights : D → Option (List ℝ)
  aicprobs : D → Option (List ℝ)
  sortedprobs : D → Option (List ℕ)
  classweights : D → Option (List ℝ)
  classprobs : D → Option (List ℝ)
  sortedclassprobs : D → Option (List ℕ)
  sortedclasses : D → Option (List (List ℕ))

/-- `MultimodelSelection()` — multimodelselection.py:39-62.  Simplification: `classes_idx` is first an empty list, then
a dictionary; reading it raises IndexError, then KeyError: here always KeyError. -/
def State.new : State R D :=
  ⟨[], [], [], [], fun _ => none, fun _ => none, fun _ => none, fun _ => none, fun _ => none, fun _ => none, fun _ => none, fun _ => none⟩

/-- The numbers `[aic.stat for aic in aics]` — aic.py:187; a number has no attribute `stat`. -/
def statsOf (a : Aics) : Res (List ℝ) := if a.raw then .error .attribute else .ok a.stats

/-- `em.akaikeweights(aics)` — aic.py:173-189, aicc.py:175-191. -/
noncomputable def weights (l : List ℝ) : Res (List ℝ) :=
  match Evaluator.akaikeWeights l with
  | none => .error .value
  | some p => .ok p

/-- `em.akaikeweights(self.aics[dg])`, `em.akaikeprobs(self.aics[dg])` for `f` = `weights`, `probs`. -/
def ofAics (f : List ℝ → Res (List ℝ)) (aics : D → Option Aics) (dg : D) : Res (List ℝ) :=
  match look aics dg with
  | .error e => .error e
  | .ok a =>
    match statsOf a with
    | .error e => .error e
    | .ok l => f l

/-- `makeaicweights` — multimodelselection.py:183-189. -/
noncomputable def makeaicweights (st : State R D) : State R D × Res Unit :=
  let p := fill (ofAics weights st.aics) st.dgs (fun _ => none)
  ({ st with aicweights := p.1 }, p.2)

/-- `makeaicprobs` — multimodelselection.py:191-197. -/
noncomputable def makeaicprobs (st : State R D) : State R D × Res Unit :=
  let p := fill (ofAics probs st.aics) st.dgs (fun _ => none)
  ({ st with aicprobs := p.1 }, p.2)

/-- `np.argsort(d[dg]).tolist()` — multimodelselection.py:206, 471. -/
def argsortOf (as : List ℝ → List ℕ) (d : D → Option (List ℝ)) (dg : D) : Res (List ℕ) :=
  match look d dg with
  | .error e => .error e
  | .ok p => .ok (as p)

/-- `makesortedprobs` — multimodelselection.py:199-206. -/
def makesortedprobs (as : List ℝ → List ℕ) (st : State R D) : State R D × Res Unit :=
  let p := fill (argsortOf as st.aicprobs) st.dgs (fun _ => none)
  ({ st with sortedprobs := p.1 }, p.2)

/-- `a(); b()`. -/
def andThen {S : Type} (a : S × Res Unit) (b : S → S × Res Unit) : S × Res Unit :=
  match a.2 with
  | .error e => (a.1, .error e)
  | .ok _ => b a.1

/-- `self.aics[dg].append(em_instance)` — multimodelselection.py:121. -/
def appendAic (aics : D → Option Aics) (dg : D) (v : ℝ) : D → Option Aics :=
  fun k => if k = dg then (aics k).map (fun a => ⟨a.raw, a.stats ++ [v]⟩) else aics k

/-- `makeaics(dgs, dr)` — multimodelselection.py:64-133; `entry m dg` is the statistic of the model `m` with the
uncertainty `dg` on the resampled data (C46: the shortcut gives it).  Not modelled: the exceptions of the evaluation of
a model, the file. -/
noncomputable def State.makeaics (as : List ℝ → List ℕ) (entry : R → D → ℝ) (dgs : List D) (st : State R D) :
    State R D × Res Unit :=
  let st1 := { st with dgs := dgs, aics := dgs.foldl (fun a dg => setKey a dg ⟨false, []⟩) st.aics }
  if dgs = [] ∧ st.results ≠ [] then (st1, .error .index)
  else
    let st2 := { st1 with aics := st.results.foldl (fun a m => dgs.foldl (fun a dg => appendAic a dg (entry m dg)) a) st1.aics }
    andThen (andThen (makeaicweights st2) makeaicprobs) (makesortedprobs as)

/-- `loadaics(filename)` — multimodelselection.py:135-170; `file` is the content of the file.  `np.sort` makes of the
keys of a dictionary an array without axes, and raises (numpy.exceptions.AxisError, a ValueError) at line 166. -/
def State.loadaics (file : D → Option (List ℝ)) (st : State R D) : State R D × Res Unit :=
  ({ st with aics := fun dg => (file dg).map (fun l => ⟨true, l⟩) }, .error .value)

/-- `sorted(range(len(temp)), key=temp.__getitem__)` on numbers, ascending. -/
noncomputable def sortRaw (stats : List ℝ) (cls : List ℕ) : List ℕ :=
  cls.mergeSort (fun i j => decide (stats.getD i 0 ≤ stats.getD j 0))

/-- One class of `makesortedclasses` — multimodelselection.py:439-445. -/
noncomputable def sortOne (a : Aics) (cls : List ℕ) : Res (List ℕ) :=
  if cls.all (fun c => decide (c < a.stats.length)) then .ok (if a.raw then sortRaw a.stats cls else sortClass a.stats cls)
  else .error .index

/-- `self.sortedclasses[dg]` — multimodelselection.py:437-446. -/
noncomputable def sortedOf (classes : List (List ℕ)) (aics : D → Option Aics) (dg : D) : Res (List (List ℕ)) :=
  if classes = [] then .ok []
  else match look aics dg with
    | .error e => .error e
    | .ok a => classes.mapM (sortOne a)

/-- `makesortedclasses` — multimodelselection.py:434-446. -/
noncomputable def makesortedclasses (st : State R D) : State R D × Res Unit :=
  let p := fill (sortedOf st.classes st.aics) st.dgs (fun _ => none)
  ({ st with sortedclasses := p.1 }, p.2)

/-- `cls[-1]`, then `self.aics[dg][b]` — multimodelselection.py:454-455. -/
def bestOf (stats : List ℝ) (cls : List ℕ) : Res ℝ :=
  match fromEnd cls 0 with
  | .error e => .error e
  | .ok b => nth stats b

/-- `em.akaikeweights([self.aics[dg][b] for b in bestinclass])` and `akaikeprobs` — multimodelselection.py:454-455,
463-464.  `aic.stat` of a number is AttributeError. -/
def ofBest (f : List ℝ → Res (List ℝ)) (aics : D → Option Aics) (sorted : D → Option (List (List ℕ))) (dg : D) :
    Res (List ℝ) :=
  match look sorted dg with
  | .error e => .error e
  | .ok [] => f []
  | .ok (c :: cs) =>
    match look aics dg with
    | .error e => .error e
    | .ok a =>
      match (c :: cs).mapM (bestOf a.stats) with
      | .error e => .error e
      | .ok l => if a.raw then .error .attribute else f l

/-- `makeclassweights` — multimodelselection.py:448-455. -/
noncomputable def makeclassweights (st : State R D) : State R D × Res Unit :=
  let p := fill (ofBest weights st.aics st.sortedclasses) st.dgs (fun _ => none)
  ({ st with classweights := p.1 }, p.2)

/-- `makeclassprobs` — multimodelselection.py:457-464. -/
noncomputable def makeclassprobs (st : State R D) : State R D × Res Unit :=
  let p := fill (ofBest probs st.aics st.sortedclasses) st.dgs (fun _ => none)
  ({ st with classprobs := p.1 }, p.2)

/-- `makesortedclassprobs` — multimodelselection.py:466-471. -/
def makesortedclassprobs (as : List ℝ → List ℕ) (st : State R D) : State R D × Res Unit :=
  let p := fill (argsortOf as st.classprobs) st.dgs (fun _ => none)
  ({ st with sortedclassprobs := p.1 }, p.2)

/-- `classify(r, tolerance)` — multimodelselection.py:330-432; `cl` is what its loops find for the results (C44). -/
noncomputable def State.classify (as : List ℝ → List ℕ) (cl : List R → List (List ℕ) × List (ℕ × ℕ)) (st : State R D) :
    State R D × Res Unit :=
  let st1 := { st with classes := (cl st.results).1, classesIdx := (cl st.results).2 }
  andThen (andThen (andThen (makesortedclasses st1) makeclassweights) makeclassprobs) (makesortedclassprobs as)

/-! ### Queries -/

/-- The keywords `corder`, `morder`, `cls` of a query. -/
structure Kw where
  corder : Option ℕ
  morder : Option ℕ
  cls : Cls

/-- No keyword. -/
def Kw.none : Kw := ⟨Option.none, Option.none, .notGiven⟩

/-- Whether `**kwds` is not empty. -/
def Kw.given (kw : Kw) : Bool :=
  kw.corder.isSome || kw.morder.isSome || (match kw.cls with | .notGiven => false | _ => true)

/-- `d[k][-1 - n]`. -/
def lookEnd {α : Type} (d : D → Option (List α)) (k : D) (n : ℕ) : Res α :=
  match look d k with
  | .error e => .error e
  | .ok l => fromEnd l n

/-- `d[k][i]`. -/
def lookNth {α : Type} (d : D → Option (List α)) (k : D) (i : ℕ) : Res α :=
  match look d k with
  | .error e => .error e
  | .ok l => nth l i

/-- `self.sortedclasses[dG][c][-1 - n]`. -/
def lookClass (st : State R D) (dg : D) (c n : ℕ) : Res ℕ :=
  match lookNth st.sortedclasses dg c with
  | .error e => .error e
  | .ok l => fromEnd l n

/-- `get_class(dG, **kwds)` — multimodelselection.py:796-814: `morder` and `cls` are accepted and not read. -/
def State.getClass (st : State R D) (dg : D) (kw : Kw) : Res ℕ := lookEnd st.sortedclassprobs dg (kw.corder.getD 0)

/-- `get_model(dG, **kwds)` — multimodelselection.py:764-794. -/
def State.getModel (st : State R D) (dg : D) (kw : Kw) : Res ℕ :=
  match kw.cls with
  | .ignore => lookEnd st.sortedprobs dg (kw.morder.getD 0)
  | .index c => lookClass st dg c (kw.morder.getD 0)
  | .notGiven =>
    match st.getClass dg ⟨kw.corder, Option.none, .notGiven⟩ with
    | .error e => .error e
    | .ok c => lookClass st dg c (kw.morder.getD 0)

/-- `self.classes_idx[i]`. -/
def State.classIdx (st : State R D) (i : ℕ) : Res ℕ :=
  match classOf st.classesIdx i with
  | none => .error .key
  | some c => .ok c

/-- `get_prob(dG, **kwds)` — multimodelselection.py:816-842. -/
def State.getProb (st : State R D) (dg : D) (kw : Kw) : Res ℝ :=
  match st.getModel dg kw with
  | .error e => .error e
  | .ok m =>
    match kw.cls with
    | .ignore => lookNth st.aicprobs dg m
    | _ =>
      match st.classIdx m with
      | .error e => .error e
      | .ok c => lookNth st.classprobs dg c

/-- What `get_nfree` reads of a result: the numbers of free parameters of the peaks and of the baseline, which may be
None. -/
structure Free where
  peaks : ℕ
  baseline : Option ℕ

/-- `get_nfree(dG, **kwds)` — multimodelselection.py:844-868. -/
def State.getNfree (free : R → Free) (st : State R D) (dg : D) (kw : Kw) : Res ℕ :=
  match st.getModel dg kw with
  | .error e => .error e
  | .ok m =>
    match nth st.results m with
    | .error e => .error e
    | .ok r =>
      match (free r).baseline with
      | none => .error .attribute
      | some b => .ok ((free r).peaks + b)

/-- `get_aic(dG, **kwds)` — multimodelselection.py:870-892. -/
def State.getAic (st : State R D) (dg : D) (kw : Kw) : Res ℝ :=
  match st.getModel dg kw with
  | .error e => .error e
  | .ok m =>
    match look st.aics dg with
    | .error e => .error e
    | .ok a =>
      match nth a.stats m with
      | .error e => .error e
      | .ok v => if a.raw then .error .attribute else .ok v

/-- One element of the tuple of `get`. -/
inductive Val (D : Type)
  | index (n : ℕ)
  | number (v : ℝ)
  | dg (d : D)

/-- `fdict[a](dG, **kwds)` — multimodelselection.py:918-928: `lambda x: x` takes no keyword. -/
def State.getOne (free : R → Free) (st : State R D) (dg : D) (kw : Kw) (name : String) : Res (Val D) :=
  if name = "aic" then (st.getAic dg kw).map .number
  else if name = "class" then (st.getClass dg kw).map .index
  else if name = "dg" then if kw.given then .error .type else .ok (.dg dg)
  else if name = "model" then (st.getModel dg kw).map .index
  else if name = "nfree" then (st.getNfree free dg kw).map .index
  else if name = "prob" then (st.getProb dg kw).map .number
  else .error .key

/-- The loop of `get` — multimodelselection.py:926-928. -/
def getLoop (one : String → Res (Val D)) : List String → List (Val D) → Res (List (Val D))
  | [], acc => .ok acc
  | a :: l, acc =>
    match one a with
    | .error e => .error e
    | .ok v => getLoop one l (acc ++ [v])

/-- `get(dG, *args, **kwds)` — multimodelselection.py:894-929. -/
def State.get (free : R → Free) (st : State R D) (dg : D) (args : List String) (kw : Kw) : Res (List (Val D)) :=
  getLoop (st.getOne free dg kw) args []

/-- `np.argmax`: the first of the largest; ValueError for nothing. -/
noncomputable def argmaxLoop : List ℝ → ℕ → ℕ → ℝ → ℕ
  | [], _, best, _ => best
  | v :: l, i, best, m => if m < v then argmaxLoop l (i + 1) i v else argmaxLoop l (i + 1) best m

/-- `np.argmax(probs)`. -/
noncomputable def argmax : List ℝ → Res ℕ
  | [] => .error .value
  | v :: l => .ok (argmaxLoop l 1 0 v)

/-- `[f(dg) for dg in self.dgs]`, `np.argmax`, `self.dgs[...]` — multimodelselection.py:946-949, 966-968. -/
noncomputable def maxdG (f : D → Res ℝ) (dgs : List D) : Res D :=
  match dgs.mapM f with
  | .error e => .error e
  | .ok l =>
    match argmax l with
    | .error e => .error e
    | .ok i => nth dgs i

/-- `maxprobdG_byclass(model)` — multimodelselection.py:931-949. -/
noncomputable def State.maxprobdGByclass (st : State R D) (model : ℕ) : Res D :=
  match st.classIdx model with
  | .error e => .error e
  | .ok c => maxdG (fun dg => lookNth st.classprobs dg c) st.dgs

/-- `maxprobdG_bymodel(model)` — multimodelselection.py:951-968. -/
noncomputable def State.maxprobdGBymodel (st : State R D) (model : ℕ) : Res D :=
  maxdG (fun dg => lookNth st.aicprobs dg model) st.dgs

/-- `maxprobmodel_byclass(dG)` — multimodelselection.py:970-986. -/
def State.maxprobmodelByclass (st : State R D) (dg : D) : Res ℕ :=
  match lookEnd st.sortedclassprobs dg 0 with
  | .error e => .error e
  | .ok c => lookClass st dg c 0

/-- `maxprobmodel_bymodel(dG)` — multimodelselection.py:988-1004. -/
def State.maxprobmodelBymodel (st : State R D) (dg : D) : Res ℕ := lookEnd st.sortedprobs dg 0

end Verif.Multimodel
