import Verif.History.Calls
import Verif.PdfExtract.Example

/-!
# C90: what holds after every sequence of calls
-/

namespace Verif.Parts.History

open Verif.Py Verif.PeakList Verif.Extraction Verif.Pdf Verif.Parts.Extract Verif.Parts.ModelCluster Verif.Parts.PdfExtract

set_option linter.unusedSectionVars false

variable {K : Type} [Field K] [LinearOrder K] [IsStrictOrderedRing K]

variable {W : World K} {S : Sampler K} {fq : List K → List K → Option K} {n : ℕ}

theorem run_append (a b : List (Call K)) (o : PObj K) :
    run W S fq n (a ++ b) o = (run W S fq n a o).bind (run W S fq n b) := by
  induction a generalizing o with
  | nil => rfl
  | cons c cs ih =>
    rw [List.cons_append, run, run]
    cases doCall W S fq n c o with
    | none => rfl
    | some p => exact ih p.2

/-- The last call of a sequence. -/
theorem run_snoc {cs : List (Call K)} {c : Call K} {o o' : PObj K} (h : run W S fq n (cs ++ [c]) o = some o') :
    ∃ mid r, run W S fq n cs o = some mid ∧ doCall W S fq n c mid = some (r, o') := by
  rw [run_append, Option.bind_eq_some_iff] at h
  obtain ⟨mid, h1, h2⟩ := h
  unfold run at h2
  rcases hd : doCall W S fq n c mid with _ | ⟨r, q⟩
  · rw [hd] at h2; cases h2
  · rw [hd] at h2
    cases h2
    exact ⟨mid, r, h1, hd⟩

/-- **C90.** After any sequence of calls on an object without result, whatever exceptions they raised: if there is a result,
it comes from the last of the calls that make or delete results; that call was `extract` or `fit`, it returned, and its kind is
the extraction type.  Later calls have only added peaks: no peak is lost, the rest of the result is as it was; without calls that
add peaks it is unchanged, and the added peaks are those given to `add_peaks` (and found by `estimate_peak`). -/
theorem c90_result (has : SortsKeys W.as) (calls : List (Call K)) (o0 o : PObj K) (h0 : o0.extracted = none)
    (h : run W S fq n calls o0 = some o) (c : Cluster K) (hc : o.extracted = some c) :
    ∃ pre call post mid o1 c0 added, calls = pre ++ call :: post ∧ run W S fq n pre o0 = some mid ∧
      doCall W S fq n call mid = some (.ok (), o1) ∧ o1.extracted = some c0 ∧
      (call.cmd = .extract ∧ o.kind = some .extract ∨ call.cmd = .fit ∧ o.kind = some .fit) ∧
      (∀ k ∈ post, ends k.cmd = false) ∧
      c = { c0 with model := c.model } ∧ c.model.Perm (c0.model ++ added) ∧
      ((∀ k ∈ post, adds k.cmd = false) → c = c0) ∧
      ((∀ k ∈ post, ∀ v, k.cmd ≠ .estimate v true) → added = post.flatMap (fun k => peaksOf k.cmd)) := by
  induction calls using List.reverseRecOn generalizing o c with
  | nil =>
    cases h
    rw [h0] at hc
    cases hc
  | append_singleton cs k ih =>
    obtain ⟨mid, r, h1, h2⟩ := run_snoc h
    obtain ⟨m1, m2, m3⟩ := call_result has k mid o r h2
    by_cases he : ends k.cmd = true
    · by_cases hm : makes k.cmd = none ∨ r ≠ .ok ()
      · rw [(m2 he hm).1] at hc
        cases hc
      · rw [not_or, not_not] at hm
        obtain ⟨hm, rfl⟩ := hm
        obtain ⟨-, hk⟩ := m1 hm rfl
        refine ⟨cs, k, [], mid, o, c, [], rfl, h1, h2, hc, ?_, by simp, rfl, by simp, fun _ => rfl, fun _ => rfl⟩
        cases hcmd : k.cmd with
        | extract => rw [hcmd] at hk; exact Or.inl ⟨rfl, hk⟩
        | fit => rw [hcmd] at hk; exact Or.inr ⟨rfl, hk⟩
        | _ => rw [hcmd] at hm; exact absurd rfl hm
    · have he' : ends k.cmd = false := by simpa using he
      obtain ⟨k1, k2, k3, k4⟩ := m3 he'
      rcases hx : mid.extracted with _ | cm
      · rw [k2 hx] at hc
        cases hc
      · obtain ⟨pre, call, post, mid', o1, c0, added, i1, i2, i3, i4, i5, i6, i7, i8, i9, i10⟩ := ih mid h1 cm hx
        have nopeaks : adds k.cmd = false → peaksOf k.cmd = [] := by
          intro ha
          cases hcmd : k.cmd with
          | add ps => rw [hcmd] at ha; cases ha
          | _ => rfl
        by_cases ha : adds k.cmd = false
        · have e := k3 ha
          rw [hc, hx] at e
          cases e
          refine ⟨pre, call, post ++ [k], mid', o1, c0, added, by simp [i1], i2, i3, i4, ?_, ?_, i7, i8, ?_, ?_⟩
          · rw [k1]; exact i5
          · intro k' hk'
            rcases List.mem_append.1 hk' with hk' | hk'
            · exact i6 k' hk'
            · simp at hk'; subst hk'; exact he'
          · intro hall
            exact i9 (fun k' hk' => hall k' (List.mem_append_left _ hk'))
          · intro hall
            rw [i10 (fun k' hk' => hall k' (List.mem_append_left _ hk'))]
            simp [nopeaks ha]
        · obtain ⟨p, ps, e, hp, hq⟩ := k4 cm hx
          rw [hc] at e
          cases e
          refine ⟨pre, call, post ++ [k], mid', o1, c0, added ++ ps, by simp [i1], i2, i3, i4, ?_, ?_, ?_, ?_, ?_, ?_⟩
          · rw [k1]; exact i5
          · intro k' hk'
            rcases List.mem_append.1 hk' with hk' | hk'
            · exact i6 k' hk'
            · simp at hk'; subst hk'; exact he'
          · rw [i7]
          · simp only
            refine hp.trans ?_
            rw [← List.append_assoc]
            exact i8.append_right ps
          · intro hall
            exact absurd (hall k (by simp)) ha
          · intro hall
            rw [i10 (fun k' hk' => hall k' (List.mem_append_left _ hk'))]
            have hadd : ∃ qs, k.cmd = .add qs := by
              cases hcmd : k.cmd with
              | add qs => exact ⟨qs, rfl⟩
              | estimate v b =>
                cases b with
                | true => exact absurd hcmd (hall k (by simp) v)
                | false => rw [hcmd] at ha; exact absurd rfl ha
              | _ => rw [hcmd] at ha; exact absurd rfl ha
            obtain ⟨qs, hqs⟩ := hadd
            rw [hq qs hqs]
            simp [hqs, peaksOf]

/-- **C90.** The extraction type is None exactly when there is no result, after any sequence of calls on a new object. -/
theorem c90_kind (has : SortsKeys W.as) (calls : List (Call K)) (H : Heap K) (o : PObj K)
    (h : run W S fq n calls (fresh H) = some o) : o.extracted = none ↔ o.kind = none := by
  induction calls using List.reverseRecOn generalizing o with
  | nil => cases h; exact ⟨fun _ => rfl, fun _ => rfl⟩
  | append_singleton cs k ih =>
    obtain ⟨mid, r, h1, h2⟩ := run_snoc h
    obtain ⟨m1, m2, m3⟩ := call_result has k mid o r h2
    by_cases he : ends k.cmd = true
    · by_cases hm : makes k.cmd = none ∨ r ≠ .ok ()
      · obtain ⟨a, b⟩ := m2 he hm
        exact ⟨fun _ => b, fun _ => a⟩
      · rw [not_or, not_not] at hm
        obtain ⟨a, b⟩ := m1 hm.1 hm.2
        constructor
        · intro h'; rw [h'] at a; cases a
        · intro h'; rw [h'] at b; exact absurd b.symm hm.1
    · obtain ⟨k1, k2, -, k4⟩ := m3 (by simpa using he)
      rw [k1, ← ih mid h1]
      constructor
      · intro h'
        rcases hx : mid.extracted with _ | cm
        · rfl
        · obtain ⟨p, ps, e, -⟩ := k4 cm hx
          rw [h'] at e; cases e
      · exact k2

/-- **C90.** An `extract` or `fit` that raises leaves no result, neither a new nor the old one. -/
theorem c90_failed (has : SortsKeys W.as) (c : Call K) (o o' : PObj K) (r : Res Unit) (hc : c.cmd = .extract ∨ c.cmd = .fit)
    (h : doCall W S fq n c o = some (r, o')) (hr : r ≠ .ok ()) : o'.extracted = none ∧ o'.kind = none := by
  refine (call_result has c o o' r h).2.1 ?_ (Or.inr hr)
  rcases hc with hc | hc <;> rw [hc] <;> rfl

/-- **C90.** The data are those of the last call that set data (and did not refuse them for different lengths), unless they
were deleted later. -/
theorem c90_data (has : SortsKeys W.as) (pre post : List (Call K)) (c : Call K) (o0 o : PObj K) (d : List K × List K)
    (hd : dataOf c.cmd = some d) (hp : ∀ k ∈ post, dataOf k.cmd = none ∧ forgets k.cmd = false)
    (h : run W S fq n (pre ++ c :: post) o0 = some o) : o.vars.base.x = some d.1 ∧ o.vars.base.y = some d.2 := by
  induction post using List.reverseRecOn generalizing o with
  | nil =>
    obtain ⟨mid, r, -, h2⟩ := run_snoc h
    exact (call_data has c mid o r h2).1 d hd
  | append_singleton cs k ih =>
    rw [show pre ++ c :: (cs ++ [k]) = (pre ++ c :: cs) ++ [k] by simp] at h
    obtain ⟨mid, r, h1, h2⟩ := run_snoc h
    obtain ⟨a, b⟩ := (call_data has k mid o r h2).2.2 (hp k (by simp)).1 (hp k (by simp)).2
    rw [a, b]
    exact ih mid (fun k' hk' => hp k' (List.mem_append_left _ hk')) h1

/-- **C90.** A variable that is set keeps its value until a call names it (`setvars`, `defaultvars`) or clears the object
(`clear`, `loadpdf`): extracting, fitting, adding and estimating peaks, setting data, and calls that raise do not change it. -/
theorem c90_vars (has : SortsKeys W.as) (calls : List (Call K)) (o0 o : PObj K) (h : run W S fq n calls o0 = some o) :
    PKept (calls.flatMap (fun k => named k.cmd)) o0.vars o.vars := by
  induction calls using List.reverseRecOn generalizing o with
  | nil => cases h; exact PKept.refl _ _
  | append_singleton cs k ih =>
    obtain ⟨mid, r, h1, h2⟩ := run_snoc h
    refine ((ih mid h1).mono ?_).trans ((call_vars has k mid o r h2).mono ?_)
    · rw [List.flatMap_append]
      exact List.subset_append_left _ _
    · rw [List.flatMap_append]
      refine List.Subset.trans ?_ (List.subset_append_right _ _)
      simp

/-- **C90.** `loadpdf` makes the object as good as new: whatever was done with it before, what it does from there on is what
a new object does. -/
theorem c90_reuse (c : Call K) (post : List (Call K)) (o1 o2 : PObj K) (d : Res (DataSet.DS K)) (hc : c.cmd = .load d) :
    run W S fq n (c :: post) o1 = run W S fq n (c :: post) o2 := by
  have : doCall W S fq n c o1 = doCall W S fq n c o2 := by
    unfold doCall
    rw [hc]
    cases d <;> rfl
  unfold run
  rw [this]

/-- **C90.** So does `clear` with the data set afterwards: the object is that of `loadpdf` without a reported qmax. -/
theorem c90_clear (a : Call K) (post : List (Call K)) (o1 o2 : PObj K) (ha : a.cmd = .clear) :
    run W S fq n (a :: post) o1 = run W S fq n (a :: post) o2 ∧ run W S fq n [a] o1 = some (fresh a.after) := by
  have : ∀ o : PObj K, doCall W S fq n a o = some (.ok (), fresh a.after) := by
    intro o
    unfold doCall
    rw [ha]
    rfl
  unfold run
  rw [this o1, this o2]
  exact ⟨rfl, rfl⟩

/-- The load of `c90_reuse` is that of the program (C74). -/
theorem loaded_eq (d : DataSet.DS K) : loaded fq d = App.loadpdf fq d := by
  unfold App.loadpdf loaded pdfSetdata
  rcases Extraction.setdata (App.cleared : PPX K).base d.robs d.gobs (some d.drobs) (some d.dgobs) with ⟨e | _, b⟩
  · rfl
  · simp only
    cases fq d.robs d.gobs <;> rfl

/-- **C90, finding.** `setdata` does not start over: the result of the old data stays (with its extraction type), and all
variables keep values that were made for the old data, such as the array of uncertainties and the range. -/
theorem c90_stale (c : Call K) (o : PObj K) (x y : List K) (dx dy : Option (List K)) (hc : c.cmd = .setdata x y dx dy) :
    ∃ r o', doCall W S fq n c o = some (r, o') ∧ o'.extracted = o.extracted ∧ o'.kind = o.kind ∧
      o'.vars.base.effdy = o.vars.base.effdy ∧ o'.vars.base.rng = o.vars.base.rng ∧ o'.vars.base.cres = o.vars.base.cres ∧
      o'.vars.qmax = o.vars.qmax ∧ o'.vars.qmaxReported = o.vars.qmaxReported := by
  refine ⟨(pdfSetdata fq o.vars x y dx dy).1, ⟨(pdfSetdata fq o.vars x y dx dy).2, c.after, o.extracted, o.kind⟩,
    by unfold doCall; rw [hc]; rfl, rfl, rfl, ?_⟩
  simp only [pdfSetdata]
  have e : ∀ s : PX K, (Extraction.setdata s x y dx dy).2.effdy = s.effdy ∧ (Extraction.setdata s x y dx dy).2.rng = s.rng ∧
      (Extraction.setdata s x y dx dy).2.cres = s.cres := by
    intro s
    unfold Extraction.setdata
    split
    · exact ⟨rfl, rfl, rfl⟩
    · simp only
      split <;> exact ⟨rfl, rfl, rfl⟩
  have := e o.vars.base
  rcases hs : Extraction.setdata o.vars.base x y dx dy with ⟨e' | _, b⟩ <;> rw [hs] at this <;>
    exact ⟨this.1, this.2.1, this.2.2, rfl, rfl⟩

/-- **C90, finding.** If no qmax can be found in new data, the value found in the old data stays, and `qmax="automatic"` takes
it. -/
theorem c90_stale_qmax (s : PPX K) (x y : List K) (q : K) (pi : K) (D : Defaults K) (hl : x.length = y.length)
    (hf : fq x y = none) (hq : s.qmaxFromData = some q) :
    (pdfSetdata fq s x y none none).1 = .ok () ∧ (pdfSetdata fq s x y none none).2.qmaxFromData = some q ∧
    psetvars pi D (pdfSetdata fq s x y none none).2 [.qmax .automatic] =
      psetvars pi D (pdfSetdata fq s x y none none).2 [.qmax (.value (some q))] := by
  have hs : Extraction.setdata s.base x y none none = (.ok (), (Extraction.setdata s.base x y none none).2) := by
    have := ((c61_setdata s.base x y none none).1).2 ⟨hl, by simp, by simp⟩
    rw [← this]
  have h2 : (pdfSetdata fq s x y none none).2.qmaxFromData = some q := by
    unfold pdfSetdata
    rw [hs]
    simp [hf, hq]
  refine ⟨?_, h2, c64_automatic pi D _ q h2⟩
  unfold pdfSetdata
  rw [hs]

/-! ### Repeating a call -/

/-- All variables are set. -/
structure Full (s : PX K) : Prop where
  cres : s.cres.isSome
  effdy : s.effdy ≠ .unset
  scalar : ∀ v, s.effdy = .scalar v → ¬ 0 < v
  pf : s.pf.isSome
  rng : ∃ a b, s.rng = some (some a, some b)
  baseline : ∃ b, s.baseline = some (.inst b)
  errorMethod : s.errorMethod.isSome
  initialPeaks : s.initialPeaks.isSome

theorem full_fixed (D : Defaults K) (s : PX K) (h : Full s) : defaultvars D s = (.ok (), s) := by
  obtain ⟨sx, sy, sdx, sdy, seff, srng, spf, sip, sbl, scr, sem⟩ := s
  obtain ⟨h1, h2, h2', h3, ⟨a, b, h4⟩, ⟨i, h5⟩, h6, h7⟩ := h
  simp only at *
  subst h4 h5
  obtain ⟨c, rfl⟩ := Option.isSome_iff_exists.1 h1
  obtain ⟨p, rfl⟩ := Option.isSome_iff_exists.1 h3
  obtain ⟨e, rfl⟩ := Option.isSome_iff_exists.1 h6
  obtain ⟨f, rfl⟩ := Option.isSome_iff_exists.1 h7
  cases seff with
  | unset => exact absurd rfl h2
  | scalar v =>
    have := h2' v rfl
    unfold defaultvars
    cases sx <;> simp [defCres, defEffdy, defPf, defRng, defBaseline, defRest, andThen, this]
  | array l => unfold defaultvars; simp [defCres, defEffdy, defPf, defRng, defBaseline, defRest, andThen]

theorem andThen_ok {r : Res Unit × PX K} {f : PX K → Res Unit × PX K} {t : PX K} (h : andThen r f = (.ok (), t)) :
    r = (.ok (), r.2) ∧ f r.2 = (.ok (), t) := by
  rcases r with ⟨e | _, s⟩
  · simp [andThen] at h
  · exact ⟨rfl, h⟩

theorem full_of_ok (D : Defaults K) (s t : PX K) (h : defaultvars D s = (.ok (), t)) : Full t := by
  unfold defaultvars at h
  obtain ⟨h, h6⟩ := andThen_ok h
  simp only [Prod.mk.injEq, true_and] at h6
  generalize (andThen (andThen (andThen (andThen (defCres s) defEffdy) (defPf D)) defRng) (defBaseline D)).2 = s5 at h h6
  obtain ⟨h, h5⟩ := andThen_ok h
  generalize (andThen (andThen (andThen (defCres s) defEffdy) (defPf D)) defRng).2 = s4 at h h5
  obtain ⟨h, h4⟩ := andThen_ok h
  generalize (andThen (andThen (defCres s) defEffdy) (defPf D)).2 = s3 at h h4
  obtain ⟨h, h3⟩ := andThen_ok h
  generalize (andThen (defCres s) defEffdy).2 = s2 at h h3
  obtain ⟨h1, h2⟩ := andThen_ok h
  generalize (defCres s).2 = s1 at h1 h2
  have a1 : s1.cres.isSome := by
    unfold defCres at h1
    split at h1
    · rename_i v hv
      simp only [Prod.mk.injEq, true_and] at h1
      subst h1; simp [hv]
    · split at h1
      · simp only [Prod.mk.injEq, true_and] at h1
        subst h1; rfl
      · simp at h1
      · simp at h1
  have a2 : s2.cres.isSome ∧ s2.effdy ≠ .unset ∧ ∀ v, s2.effdy = .scalar v → ¬ 0 < v := by
    unfold defEffdy at h2
    split at h2
    · split at h2
      · simp only [Prod.mk.injEq, true_and] at h2
        subst h2
        exact ⟨a1, by simp, by simp⟩
      · split at h2
        · simp at h2
        · simp only [Prod.mk.injEq, true_and] at h2
          subst h2
          exact ⟨a1, by simp, by simp⟩
    · simp at h2
    · rename_i v x h' _
      split at h2
      · simp only [Prod.mk.injEq, true_and] at h2
        subst h2
        exact ⟨a1, by simp, by simp⟩
      · rename_i hv
        simp only [Prod.mk.injEq, true_and] at h2
        subst h2
        refine ⟨a1, by rw [h']; simp, ?_⟩
        intro w hw
        rw [h'] at hw
        cases hw
        exact hv
    · rename_i v h' _
      split at h2
      · simp at h2
      · rename_i hv
        simp only [Prod.mk.injEq, true_and] at h2
        subst h2
        refine ⟨a1, by rw [h']; simp, ?_⟩
        intro w hw
        rw [h'] at hw
        cases hw
        exact hv
    · rename_i l h'
      simp only [Prod.mk.injEq, true_and] at h2
      subst h2
      exact ⟨a1, by rw [h']; simp, by rw [h']; simp⟩
  have a3 : s3.cres.isSome ∧ (s3.effdy ≠ .unset ∧ ∀ v, s3.effdy = .scalar v → ¬ 0 < v) ∧ s3.pf.isSome := by
    unfold defPf at h3
    split at h3
    · rename_i v hv
      simp only [Prod.mk.injEq, true_and] at h3
      subst h3
      exact ⟨a2.1, a2.2, by simp [hv]⟩
    · split at h3
      · simp at h3
      · split at h3
        · simp at h3
        · simp only [Prod.mk.injEq, true_and] at h3
          subst h3
          exact ⟨a2.1, a2.2, rfl⟩
  have a4 : s4.cres.isSome ∧ (s4.effdy ≠ .unset ∧ ∀ v, s4.effdy = .scalar v → ¬ 0 < v) ∧ s4.pf.isSome ∧
      ∃ a b, s4.rng = some (some a, some b) := by
    unfold defRng at h4
    split at h4
    · rename_i a b hv
      simp only [Prod.mk.injEq, true_and] at h4
      subst h4
      exact ⟨a3.1, a3.2.1, a3.2.2, a, b, hv⟩
    · split at h4
      · simp at h4
      · simp only [Prod.mk.injEq, true_and] at h4
        subst h4
        exact ⟨a3.1, a3.2.1, a3.2.2, _, _, rfl⟩
  have a5 : s5.cres.isSome ∧ (s5.effdy ≠ .unset ∧ ∀ v, s5.effdy = .scalar v → ¬ 0 < v) ∧ s5.pf.isSome ∧
      (∃ a b, s5.rng = some (some a, some b)) ∧ ∃ b, s5.baseline = some (.inst b) := by
    have hb : ∃ b, s5 = { s4 with baseline := some (.inst b) } := by
      unfold defBaseline at h5
      split at h5
      · rename_i i hv
        simp only [Prod.mk.injEq, true_and] at h5
        subst h5
        exact ⟨i, by rw [← hv]⟩
      · simp only [Prod.mk.injEq, true_and] at h5
        exact ⟨_, h5.symm⟩
      · split at h5
        · simp at h5
        · split at h5
          · simp only [Prod.mk.injEq, true_and] at h5
            exact ⟨_, h5.symm⟩
          · simp only [Prod.mk.injEq, true_and] at h5
            exact ⟨_, h5.symm⟩
          · simp only [Prod.mk.injEq, true_and] at h5
            exact ⟨_, h5.symm⟩
          · simp at h5
    obtain ⟨b, rfl⟩ := hb
    exact ⟨a4.1, a4.2.1, a4.2.2.1, a4.2.2.2, b, rfl⟩
  subst h6
  exact ⟨a5.1, a5.2.1.1, a5.2.1.2, a5.2.2.1, a5.2.2.2.1, a5.2.2.2.2, rfl, rfl⟩

theorem pdefaultvars_fixed (pi : K) (D : Defaults K) (s t : PPX K) (h : pdefaultvars pi D s = (.ok (), t)) :
    pdefaultvars pi D t = (.ok (), t) := by
  unfold pdefaultvars at h
  simp only at h
  generalize hb : defaultvars D { s.base with
    cres := chooseCres pi (chooseQmax s) s.base.cres
    pf := some (s.base.pf.getD (D.gaussianOverR (7 / 10))) } = r at h
  obtain ⟨r1, b⟩ := r
  simp only [Prod.mk.injEq] at h
  obtain ⟨rfl, rfl⟩ := h
  have hf := full_of_ok D _ _ hb
  obtain ⟨c, hc⟩ := Option.isSome_iff_exists.1 hf.cres
  obtain ⟨p, hp⟩ := Option.isSome_iff_exists.1 hf.pf
  have e : ({ b with cres := chooseCres pi (chooseQmax s) b.cres, pf := some (b.pf.getD (D.gaussianOverR (7 / 10))) } : PX K) = b := by
    rw [hc, hp]
    simp only [chooseCres, Option.getD_some]
    rw [← hc, ← hp]
  have hd := full_fixed D b hf
  unfold pdefaultvars
  simp only [chooseQmax, Option.getD_some]
  simp only [chooseQmax] at e
  rw [e, hd]

/-- **C90.** Repeating `extract` when the objects behind the variables have not been changed gives the same result and leaves
the object as it is: nothing of the first run is remembered but the variables. -/
theorem c90_repeat (c : Call K) (o o' : PObj K) (hc : c.cmd = .extract) (h : doCall W S fq n c o = some (.ok (), o'))
    (hh : c.after = o.heap) : doCall W S fq n c o' = some (.ok (), o') := by
  obtain ⟨cmd, D, after⟩ := c
  simp only at hc hh
  subst hc hh
  have key : ∀ p, PdfExtract.extract W S D n o = some (.ok (), p) → p.heap = o.heap ∧
      PdfExtract.extract W S D n p = some (.ok (), p) := by
    intro p hp
    unfold PdfExtract.extract at hp
    rcases hd : pdefaultvars S.pi D o.vars with ⟨e | _, s⟩
    · rw [hd] at hp; cases hp
    · rw [hd] at hp
      simp only [Option.map_eq_some_iff] at hp
      obtain ⟨r, h1, h2⟩ := hp
      unfold leave at h2
      rcases r with e | m
      · cases h2
      · simp only [Prod.mk.injEq, true_and] at h2
        subst h2
        refine ⟨rfl, ?_⟩
        unfold PdfExtract.extract
        simp only
        rw [pdefaultvars_fixed S.pi D _ _ hd]
        simp only [h1, Option.map_some]
        rfl
  unfold doCall perform at h ⊢
  simp only [Option.map_eq_some_iff] at h
  obtain ⟨⟨r, q⟩, h1, h2⟩ := h
  unfold withHeap at h2
  simp only [Prod.mk.injEq] at h2
  obtain ⟨rfl, rfl⟩ := h2
  obtain ⟨k1, k2⟩ := key q h1
  have e : ({ q with heap := o.heap } : PObj K) = q := by rw [← k1]
  simp only [e, k2, Option.map_some, withHeap]

/-! ### Instances -/

/-- No qmax is found in the data of the examples unless they start with 0. -/
def exFind : List ℚ → List ℚ → Option ℚ
  | 0 :: _, _ => some 3
  | _, _ => none

/-- A data set. -/
def exLoad : DataSet.DS ℚ :=
  { robs := [0, 1, 2, 3, 4, 5, 6], gobs := [0, 3, 5, 0, 0, 0, 0], drobs := [0, 0, 0, 0, 0, 0, 0], dgobs := [1/4, 1/4, 1/4, 1/4, 1/4, 1/4, 1/4], stype := true, qmax := 3, qdamp := 0, qbroad := 0, spdiameter := none, dscale := 1, rmin := none, rmax := none, filename := none, metadata := [] }

/-- A call of the examples. -/
def exCall (c : Cmd ℚ) : Call ℚ := ⟨c, dotDef, dotHeap⟩

/-- A history: load, an unknown variable (ValueError), set variables, extract, add a peak at 4. -/
def exCalls : List (Call ℚ) :=
  [exCall (.load (.ok exLoad)), exCall (.setvars [.base (.other "bogus")]),
    exCall (.setvars [.base (.pf (some 1)), .base (.cres (some 1)), .supersample 1]), exCall .extract,
    exCall (.add [dot 9 4 1 true]), exCall (.defaults ["scale"])]

/-- Whether the result is an extraction, functions and parameters. -/
def exShow (o : Option (PObj ℚ)) : Option (Bool × List (ℕ × List ℚ)) :=
  o.bind (fun o => o.extracted.map (fun c => (o.kind == some Kind.extract, c.model.map (fun p => (p.owner.id, p.pars)))))

/-- The history ends with three peaks, the third one added. -/
theorem exCalls_result : exShow (run dotWorld linSampler exFind 5 exCalls (fresh dotHeap)) =
    some (true, [(107, [1, 3]), (107, [2, 5]), (9, [4, 1])]) := by decide +kernel

/-- The object after the history, and its result. -/
theorem exCalls_end : ∃ o c, run dotWorld linSampler exFind 5 exCalls (fresh dotHeap) = some o ∧ o.extracted = some c := by
  have h := exCalls_result
  unfold exShow at h
  rw [Option.bind_eq_some_iff] at h
  obtain ⟨o, h1, h2⟩ := h
  rw [Option.map_eq_some_iff] at h2
  obtain ⟨c, h3, -⟩ := h2
  exact ⟨o, c, h1, h3⟩

/-- `c90_result`, `c90_kind`, `c90_data` and `c90_vars` apply to the history of the example. -/
example : ∃ o c, run dotWorld linSampler exFind 5 exCalls (fresh dotHeap) = some o ∧ o.extracted = some c ∧
    (∃ pre call post mid o1 c0 added, exCalls = pre ++ call :: post ∧ run dotWorld linSampler exFind 5 pre (fresh dotHeap) = some mid ∧
      doCall dotWorld linSampler exFind 5 call mid = some (.ok (), o1) ∧ o1.extracted = some c0 ∧
      (call.cmd = .extract ∧ o.kind = some .extract ∨ call.cmd = .fit ∧ o.kind = some .fit) ∧
      (∀ k ∈ post, ends k.cmd = false) ∧
      c = { c0 with model := c.model } ∧ c.model.Perm (c0.model ++ added) ∧
      ((∀ k ∈ post, adds k.cmd = false) → c = c0) ∧
      ((∀ k ∈ post, ∀ v, k.cmd ≠ .estimate v true) → added = post.flatMap (fun k => peaksOf k.cmd))) ∧
    (o.extracted = none ↔ o.kind = none) ∧
    (o.vars.base.x = some [0, 1, 2, 3, 4, 5, 6] ∧ o.vars.base.y = some [0, 3, 5, 0, 0, 0, 0]) ∧
    PKept (exCalls.flatMap (fun k => named k.cmd)) (fresh dotHeap : PObj ℚ).vars o.vars := by
  obtain ⟨o, c, h1, h2⟩ := exCalls_end
  refine ⟨o, c, h1, h2, c90_result dotWorld_sane.sorts exCalls _ o rfl h1 c h2, c90_kind dotWorld_sane.sorts exCalls _ o h1, ?_,
    c90_vars dotWorld_sane.sorts exCalls _ o h1⟩
  refine c90_data dotWorld_sane.sorts [] exCalls.tail (exCall (.load (.ok exLoad))) (fresh dotHeap) o _ rfl ?_ h1
  intro k hk
  simp only [exCalls, List.tail_cons, List.mem_cons, List.not_mem_nil, or_false] at hk
  rcases hk with rfl | rfl | rfl | rfl | rfl <;> exact ⟨rfl, rfl⟩

/-- Whether a call raised, and whether there is a result after it. -/
def exFail (o : Option (Res Unit × PObj ℚ)) : Option (Bool × Bool) := o.map (fun p => (p.1.toOption.isSome, p.2.extracted.isSome))

/-- `c90_failed`: extracting without data raises; an object with a result has none afterwards. -/
theorem exFail_result (c : Cluster ℚ) : exFail (doCall dotWorld linSampler exFind 5 (exCall .extract)
    { fresh dotHeap with extracted := some c, kind := some Kind.fit }) = some (false, false) := rfl

/-- `c90_reuse`: the whole history of the example starts with `loadpdf`. -/
example (o : PObj ℚ) : run dotWorld linSampler exFind 5 exCalls o = run dotWorld linSampler exFind 5 exCalls (fresh dotHeap) :=
  c90_reuse _ _ _ _ _ rfl

/-- `c90_stale_qmax`: data that start with 0 have the qmax 3; it is still there with data in which none is found. -/
example : (pdfSetdata exFind (loaded exFind exLoad).2 [1, 2] [3, 4] none none).2.qmaxFromData = some 3 :=
  (c90_stale_qmax (loaded exFind exLoad).2 [1, 2] [3, 4] 3 (22/7) dotDef rfl rfl (by decide +kernel)).2.1

/-- `c90_repeat`: the second of two extractions. -/
theorem exRepeat_ok : exFail ((run dotWorld linSampler exFind 5 (exCalls.take 3) (fresh dotHeap)).bind
    (doCall dotWorld linSampler exFind 5 (exCall .extract))) = some (true, true) := by decide +kernel

end Verif.Parts.History
