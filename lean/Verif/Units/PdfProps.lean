import Verif.Units.Props
import Verif.Units.Pdf
import Verif.Units.PdfSearch
import Verif.Pdf.QmaxExample
import Verif.Pdf.Vars
import Verif.PdfExtract.Lemmas

/-!
# Property C106: a PDF in other units

`r` times `a > 0`, `G(r)` times `k > 0`, `qmax` divided by `a`.
-/

set_option linter.unusedSectionVars false

namespace Verif.Parts.Units

open Verif.Py Verif.PeakList Verif.Parts.ModelCluster Verif.Parts.Extract Verif.Extraction Verif.Pdf Verif.Parts.PdfExtract Verif.Parts.Package

section

variable {K : Type} [Field K] [LinearOrder K] [IsStrictOrderedRing K]

variable {u : Change K} {N N' : Numerics K} {D D' : Defaults K} {S S' : Sampler K}

theorem given_pf {pi : K} {D : Defaults K} {s t : PPX K} (h : pdefaultvars pi D s = (.ok (), t)) : t.base.pf.isSome = true := by
  obtain ⟨-, -, -, -, h⟩ := pdefault_ok h
  unfold defaultvars at h
  obtain ⟨s5, h, k6⟩ := andThen_ok h
  obtain ⟨s4, h, k5⟩ := andThen_ok h
  obtain ⟨s3, h, k4⟩ := andThen_ok h
  obtain ⟨s2, h, k3⟩ := andThen_ok h
  obtain ⟨v3, rfl, -⟩ := defPf_frame k3
  obtain ⟨v4, rfl, -⟩ := defRng_frame k4
  obtain ⟨v5, rfl, -⟩ := defBaseline_frame k5
  simp only [Prod.mk.injEq, true_and] at k6
  rw [← k6]
  rfl

/-- **C106.** `extract` on the converted PDF, with peak functions given: after as many resamplings, the same exception, or the same peaks and
baseline in the new units. -/
theorem c106_extract (hu : u.Sensible) (hN : NumericsAlike u N N') (hD : DefaultsAlike u D D') (hS : SamplerAlike u S S') (n : ℕ) (o : PObj K)
    (hpf : o.vars.base.pf.isSome = true) :
    PdfExtract.extract (codeWorld N') S' D' n (u.pobj o) = (PdfExtract.extract (codeWorld N) S D n o).map (fun r => (r.1, u.pobj r.2)) := by
  unfold PdfExtract.extract
  have e : (u.pobj o).vars = u.pvars o.vars := rfl
  rw [e, hS.pi, pdefaultvars_units hu hD _ _ hpf]
  cases hd : pdefaultvars S.pi D o.vars with
  | mk q s =>
    cases q with
    | error e => rfl
    | ok v =>
      simp only
      have e2 : (u.pobj o).heap = u.heap o.heap := rfl
      rw [e2, extracted_units hu (code_alike hu hN) hD hS _ s (given_pf hd)]
      cases extracted (codeWorld N) o.heap S D s n with
      | none => rfl
      | some r => cases r <;> rfl

/-- **C106.** `fit` of the converted PDF, with peak functions given; the objects that it changes are converted too. -/
theorem c106_fit (hu : u.Sensible) (hN : NumericsAlike u N N') (hD : DefaultsAlike u D D') (hS : SamplerAlike u S S') (o : PObj K)
    (hpf : o.vars.base.pf.isSome = true) :
    PdfExtract.fit (codeWorld N') S' D' (u.pobj o) = ((PdfExtract.fit (codeWorld N) S D o).1, u.pobj (PdfExtract.fit (codeWorld N) S D o).2) := by
  unfold PdfExtract.fit
  have e : (u.pobj o).vars = u.pvars o.vars := rfl
  rw [e, hS.pi, pdefaultvars_units hu hD _ _ hpf]
  cases hd : pdefaultvars S.pi D o.vars with
  | mk q s =>
    cases q with
    | error e => rfl
    | ok v =>
      simp only
      have ev : fitVars S' D' (u.pvars s) = (fitVars S D s).map u.vars := by
        unfold fitVars
        refine map_bind (complete_units s) ?_
        intro P
        refine map_bind (fitGrid_units hu hD hS s (given_pf hd) P) ?_
        intro g
        exact innerVars_units hu hD P g
      rw [ev]
      cases fitVars S D s with
      | error e => rfl
      | ok t =>
        have ef : fitSingle (codeWorld N') D' ⟨u.vars t, (u.pobj o).heap, none⟩ = _ := fitSingle_units hu (code_alike hu hN) hD ⟨t, o.heap, none⟩
        simp only [Except.map]
        rw [ef]
        cases fitSingle (codeWorld N) D ⟨t, o.heap, none⟩ with
        | mk q i => cases q <;> rfl

/-- **C106.** The defaults of all variables, with peak functions given. -/
theorem c106_defaults (hu : u.Sensible) (hD : DefaultsAlike u D D') (pi : K) (s : PPX K) (hpf : s.base.pf.isSome = true) :
    pdefaultvars pi D' (u.pvars s) = ((pdefaultvars pi D s).1, u.pvars (pdefaultvars pi D s).2) :=
  pdefaultvars_units hu hD pi s hpf

/-- **C106 (finding).** The default peak function of a PDF is not converted: its maximum width is 0.7 whatever the unit of the data, so it is one function
for data in Å and another one for the same data in nm.  (The default of `PeakExtraction` is the width of the data, C104.) -/
theorem c106_default_width (hu : u.Sensible) (pi : K) (D : Defaults K) (s : PPX K) (x y dy : List K) (x0 x1 : K) (h : HasData s.base x y dy x0 x1)
    (hb : ∀ f, s.base.baseline ≠ some (.func f)) (hpf : s.base.pf = none) :
    (pdefaultvars pi D s).2.base.pf = some (D.gaussianOverR (7 / 10)) ∧ (pdefaultvars pi D (u.pvars s)).2.base.pf = some (D.gaussianOverR (7 / 10)) := by
  have h' : HasData (u.pvars s).base (u.xs x) (u.ys y) (u.ys dy) (u.a * x0) (u.a * x1) := by
    refine ⟨?_, ?_, ?_, ?_, ?_, ?_, ?_, ?_⟩
    · show s.base.x.map u.xs = _
      rw [h.hx]; rfl
    · show s.base.y.map u.ys = _
      rw [h.hy]; rfl
    · show s.base.dy.map u.ys = _
      rw [h.hdy]; rfl
    · rw [xs_length, ys_length]; exact h.leny
    · rw [xs_length, ys_length]; exact h.lendy
    · simp [Change.xs, h.first]
    · simp [Change.xs, h.last]
    · exact mul_lt_mul_of_pos_left h.wide hu.a
  have k1 := c64_defaults pi D s x y dy x0 x1 h hb
  have k2 := c64_defaults pi D (u.pvars s) (u.xs x) (u.ys y) (u.ys dy) (u.a * x0) (u.a * x1) h' hb
  have e : (u.pvars s).base.pf = none := hpf
  have l1 := k1.2.2.2.2.2.2.1
  have l2 := k2.2.2.2.2.2.2.1
  rw [hpf] at l1
  rw [e] at l2
  exact ⟨l1, l2⟩

end

/-! ### The functions of the code -/

section

variable {a k : ℝ}

/-- **C106.** `find_qmax`: the value for the converted PDF is the value divided by `a`, and so is its uncertainty.  (`nan` is the index that numpy chooses among
infinite and NaN values; multiplying does not change these.) -/
theorem c106_find_qmax (ha : 0 < a) (hk : 0 < k) {nan nan' : List ℝ → ℕ} (hn : ∀ f, nan' (f.map (fun v => k * v)) = nan f) (r y : List ℝ) :
    findQmax nan' (r.map (fun v => a * v)) (y.map (fun v => k * v)) = (findQmax nan r y).map (fun q => (q.1 / a, q.2 / a)) :=
  findQmax_units ha hk hn r y

/-- **C106.** `setdata` with the converted PDF: the converted object, the estimate of `qmax` included. -/
theorem c106_setdata {u : Change ℝ} (hu : u.Sensible) {nan nan' : List ℝ → ℕ} (hn : ∀ f, nan' (f.map (fun v => u.k * v)) = nan f) (s : PPX ℝ)
    (x y : List ℝ) (dx dy : Option (List ℝ)) :
    History.pdfSetdata (foundQmax nan') (u.pvars s) (u.xs x) (u.ys y) (dx.map u.xs) (dy.map u.ys) =
      ((History.pdfSetdata (foundQmax nan) s x y dx dy).1, u.pvars (History.pdfSetdata (foundQmax nan) s x y dx dy).2) := by
  have e0 : setdata (u.pvars s).base (u.xs x) (u.ys y) (dx.map u.xs) (dy.map u.ys) = both u (setdata s.base x y dx dy) := by
    have z : (u.xs x).map (fun _ => (0 : ℝ)) = u.xs (x.map (fun _ => 0)) := by
      unfold Change.xs
      rw [List.map_map, List.map_map]
      exact List.map_congr_left (fun v _ => (mul_zero u.a).symm)
    have z' : (u.xs x).map (fun _ => (0 : ℝ)) = u.ys (x.map (fun _ => 0)) := by
      unfold Change.xs Change.ys
      rw [List.map_map, List.map_map]
      exact List.map_congr_left (fun v _ => (mul_zero u.k).symm)
    have k1 : (dx.map u.xs).getD ((u.xs x).map (fun _ => 0)) = u.xs (dx.getD (x.map (fun _ => 0))) := by
      cases dx with
      | none => exact z
      | some d => rfl
    have k2 : (dy.map u.ys).getD ((u.xs x).map (fun _ => 0)) = u.ys (dy.getD (x.map (fun _ => 0))) := by
      cases dy with
      | none => exact z'
      | some d => rfl
    unfold setdata
    simp only [k1, k2, xs_length, ys_length]
    split
    · rfl
    split <;> rfl
  have e1 : foundQmax nan' (u.xs x) (u.ys y) = (foundQmax nan x y).map (fun q => q / u.a) := by
    unfold foundQmax
    have : findQmax nan' (u.xs x) (u.ys y) = _ := findQmax_units hu.a hu.k hn x y
    rw [this]
    cases findQmax nan x y <;> rfl
  unfold History.pdfSetdata
  rw [e0, e1]
  cases setdata s.base x y dx dy with
  | mk q b =>
    cases q with
    | error e => rfl
    | ok v =>
      simp only [both]
      obtain ⟨b0, q, n, sc, ss, qr, qd⟩ := s
      cases foundQmax nan x y <;> rfl

/-- **C106.** `resample` of the converted PDF at converted points. -/
theorem c106_resample (ha : 0 < a) (r y new : List ℝ) :
    resample (r.map (fun v => a * v)) (y.map (fun v => k * v)) (new.map (fun v => a * v)) = (resample r y new).map (fun l => l.map (fun v => k * v)) :=
  resample_units ha r y new

/-- **C106.** `TerminationRipples` around a converted function, `qmax` divided by `a`: `value` on the converted grid is the converted value, in any range. -/
theorem c106_ripples_value (ha : 0 < a) (R : Ripples.Rip) (own : Bool) {f f' : ℝ → ℝ} (hf : ∀ x, f' (a * x) = k * f x) (r : List ℝ) (rng : Option (ℕ × ℕ)) :
    Ripples.value ⟨R.qmax / a, R.extension, R.supersample⟩ own f' (r.map (fun v => a * v)) rng =
      (Ripples.value R own f r rng).map (fun l => l.map (fun v => k * v)) :=
  Ripples.value_units ha R own hf r rng

/-- **C106.** The same at a single point. -/
theorem c106_ripples_at (ha : 0 < a) (R : Ripples.Rip) (own : Bool) {f f' : ℝ → ℝ} (hf : ∀ x, f' (a * x) = k * f x) (x : ℝ) :
    Ripples.valueAt ⟨R.qmax / a, R.extension, R.supersample⟩ own f' (a * x) = (Ripples.valueAt R own f x).map (fun v => k * v) :=
  Ripples.valueAt_units ha R own hf x

/-- **C106.** The Jacobian of `TerminationRipples`: row `i` has the unit `c i` of derivative `i` of the converted function. -/
theorem c106_ripples_jacobian (ha : 0 < a) (R : Ripples.Rip) (own : Bool) (c : ℕ → ℝ) (d : List (Option (ℝ → ℝ))) (r : List ℝ) (rng : Option (ℕ × ℕ)) :
    Ripples.jacobian ⟨R.qmax / a, R.extension, R.supersample⟩ own (d.mapIdx (fun i f => f.map (fun g x => c i * g (a⁻¹ * x)))) (r.map (fun v => a * v)) rng =
      (Ripples.jacobian R own d r rng).map (fun rows => rows.mapIdx (fun i row => row.map (List.map (fun v => c i * v)))) :=
  Ripples.jacobian_units ha R own c d r rng

variable {T : Table} {wo : ℕ → List (String × ℕ) → ℕ → ℝ}

/-- The identities of functions with ripples, which are of the class of the function they decorate. -/
structure FreshAlike (a : ℝ) (T : Table) (wo : ℕ → List (String × ℕ) → ℕ → ℝ) (fresh fresh' : ℝ → ℕ → ℕ) : Prop where
  same : ∀ q i, fresh' (q / a) i = fresh q i
  table : ∀ q i, T (fresh q i) = T i
  other : ∀ q i d, wo (fresh q i) d = wo i d

theorem sampler_alike (ha : 0 < a) {fresh fresh' : ℝ → ℕ → ℕ} (hf : FreshAlike a T wo fresh fresh') (rip : ℕ → Bool) :
    SamplerAlike (change a k T wo) (realSampler (rippled fresh) (fun o => rip o.id)) (realSampler (rippled fresh') (fun o => rip o.id)) where
  pi := rfl
  errorscale q n s d := errorscale_units ha q n s d
  arange s t d := arange_units ha s t d
  resample x y r := resample_units ha x y r
  interp v x e := interp_units ha v x e
  units q o := by
    funext i
    show (if o.dict = peakDict then peakUnit (T (fresh q o.id)).1 a k i else wo (fresh q o.id) o.dict i) = _
    rw [hf.table, hf.other]
    rfl
  isRipple o := by
    show rip ((change a k T wo).fn o).id = rip o.id
    have : ((change a k T wo).fn o).id = o.id := by
      simp only [change]
      split <;> rfl
    rw [this]
  ripple q o := by
    show rippled fresh' (q / a) ((change a k T wo).fn o) = (change a k T wo).fn (rippled fresh q o)
    have hiff : o = function 0 o.id (T o.id) ↔ rippled fresh q o = function 0 (fresh q o.id) (T (fresh q o.id)) := by
      rw [hf.table]
      constructor
      · intro h
        conv_lhs => rw [h]
        rfl
      · intro h
        have : ({ rippled fresh q o with id := o.id } : Owner ℝ) = { function 0 (fresh q o.id) (T o.id) with id := o.id } := by rw [h]
        exact this
    by_cases hp : o = function 0 o.id (T o.id)
    · have e1 : (change a k T wo).fn o = function 0 o.id (table a T o.id) := by
        simp only [change]
        rw [if_pos hp]
      have e2 : (change a k T wo).fn (rippled fresh q o) = function 0 (fresh q o.id) (table a T (fresh q o.id)) := by
        simp only [change]
        exact if_pos (hiff.1 hp)
      have e3 : table a T (fresh q o.id) = table a T o.id := by
        unfold table
        rw [hf.table]
      rw [e1, e2, e3]
      show ({ function 0 o.id (table a T o.id) with id := fresh' (q / a) o.id } : Owner ℝ) = _
      rw [hf.same]
      rfl
    · have e1 : (change a k T wo).fn o = moved a k ((change a k T wo).w o) o := by
        simp only [change]
        rw [if_neg hp]
      have e2 : (change a k T wo).fn (rippled fresh q o) = moved a k ((change a k T wo).w (rippled fresh q o)) (rippled fresh q o) := by
        simp only [change]
        exact if_neg (fun h => hp (hiff.2 h))
      have e3 : (change a k T wo).w (rippled fresh q o) = (change a k T wo).w o := by
        funext i
        show (if o.dict = peakDict then peakUnit (T (fresh q o.id)).1 a k i else wo (fresh q o.id) o.dict i) = _
        rw [hf.table, hf.other]
        rfl
      rw [e1, e2, e3]
      show ({ moved a k _ o with id := fresh' (q / a) o.id } : Owner ℝ) = _
      rw [hf.same]
      rfl

/-- **C106.** The whole extraction with the peak functions, resampling and error scaling of the code. -/
theorem c106_package (ha : 0 < a) (hk : 0 < k) (hw : OtherUnits a wo) {N N' : Numerics ℝ} (h : RestAlike (change a k T wo) N N')
    {D D' : Defaults ℝ} (hD : DefaultsAlike (change a k T wo) D D') {fresh fresh' : ℝ → ℕ → ℕ} (hf : FreshAlike a T wo fresh fresh') (rip : ℕ → Bool)
    (n : ℕ) (o : PObj ℝ) (hpf : o.vars.base.pf.isSome = true) :
    PdfExtract.extract (codeWorld (inPackage (table a T) N')) (realSampler (rippled fresh') (fun o => rip o.id)) D' n ((change a k T wo).pobj o) =
        (PdfExtract.extract (codeWorld (inPackage T N)) (realSampler (rippled fresh) (fun o => rip o.id)) D n o).map (fun r => (r.1, (change a k T wo).pobj r.2)) ∧
      PdfExtract.fit (codeWorld (inPackage (table a T) N')) (realSampler (rippled fresh') (fun o => rip o.id)) D' ((change a k T wo).pobj o) =
        ((PdfExtract.fit (codeWorld (inPackage T N)) (realSampler (rippled fresh) (fun o => rip o.id)) D o).1,
          (change a k T wo).pobj (PdfExtract.fit (codeWorld (inPackage T N)) (realSampler (rippled fresh) (fun o => rip o.id)) D o).2) :=
  ⟨c106_extract (change_sensible ha hk hw) (package_alike ha hk hw h) hD (sampler_alike ha hf rip) n o hpf,
    c106_fit (change_sensible ha hk hw) (package_alike ha hk hw h) hD (sampler_alike ha hf rip) o hpf⟩

/-! ### An instance -/

/-- Functions 0-9 and, ten further on, the same with ripples. -/
def tenTable : Table := fun i => (if i % 10 = 1 then .overR else .gaussian, 2)

theorem tenFresh : FreshAlike 10 tenTable exOther (fun _ i => i + 10) (fun _ i => i + 10) where
  same _ _ := rfl
  table q i := by simp [tenTable]
  other _ _ _ := rfl

example := c106_package (T := tenTable) (by norm_num : (0 : ℝ) < 10) (by norm_num : (0 : ℝ) < 3) exOther_units halving_alike exDefs_alike tenFresh
  (fun i => decide (10 ≤ i)) 5 exPObj rfl

/-- The converted `qmax`: 2 instead of 20. -/
example : ((change 10 3 tenTable exOther).pobj exPObj).vars.qmax = some 2 := by
  simp only [Change.pobj, Change.pvars, exPObj, change, Option.map_some]
  norm_num

/-- Data in Å and in nm. -/
example (pi : ℝ) := c106_default_width (u := change (1 / 10) 100 exTable (fun _ _ _ => 1 / 10))
  (change_sensible (by norm_num) (by norm_num) ⟨fun _ _ _ => by norm_num, fun _ _ _ _ => rfl⟩) pi exDefs
  { base := { x := some [0, 1, 2], y := some [0, 3, 1], dx := some [0, 0, 0], dy := some [0, 0, 0] } } [0, 1, 2] [0, 3, 1] [0, 0, 0] 0 2
  ⟨rfl, rfl, rfl, rfl, rfl, rfl, rfl, by norm_num⟩ (by intro f; simp) rfl

/-- A function with ripples, at a point where the conversion is not trivial. -/
example (R : Ripples.Rip) := c106_ripples_at (by norm_num : (0 : ℝ) < 10) R true (k := 3) (f := fun x => x ^ 2) (f' := fun x => 3 * (x / 10) ^ 2)
  (by intro x; ring) 1

end

end Verif.Parts.Units
