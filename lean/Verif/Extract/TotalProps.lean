import Verif.Extract.Total
import Verif.Extract.Example
import Verif.Extraction.Vars

/-!
# C85: which calls of `extract_single` return
-/

set_option linter.unusedSectionVars false

namespace Verif.Parts.Extract

open Verif.Py Verif.PeakList Verif.Parts.ModelCluster Verif.Extraction

variable {K : Type} [Field K] [LinearOrder K] [IsStrictOrderedRing K]
variable {W : World K} {H : Heap K} {D : Defaults K} {V : Prop}

/-- Variables that make sense: increasing coordinates with as many values and uncertainties, a data point in the range,
no uncertainty or resolution that is not positive, some peak function (by default only if the data have a width), initial
peaks that may be removed, a baseline that is given, absent, or estimated by something that fails only as estimates do. -/
structure Usable (D : Defaults K) (H : Heap K) (s : PX K) (x y : List K) : Prop where
  ready : Ready s x y
  inside : ∃ a ∈ x, (∀ l, s.rng.bind Prod.fst = some l → l ≤ a) ∧ (∀ h, s.rng.bind Prod.snd = some h → a ≤ h)
  eff : ∀ v, s.effdy = .scalar v → 0 < v
  cres : ∀ v, s.cres = some v → 0 ≤ v
  pf : ∀ f, s.pf = some f → H.funcs f ≠ []
  wide : s.pf = none → 2 ≤ x.length ∧ ∀ w, H.funcs (D.gaussianOverR w) ≠ []
  base : ∀ f, s.baseline = some (.func f) → ∀ xs ys e, D.estimate f xs ys = .error e → e = .notImplemented ∨ e = .estimation
  ip : ∀ p ∈ H.peaks (s.initialPeaks.getD D.noPeaks), p.removable = true

theorem Usable.ne {s : PX K} {x y : List K} (h : Usable D H s x y) : x ≠ [] := by
  obtain ⟨a, ha, -⟩ := h.inside
  exact List.ne_nil_of_mem ha

/-- First and last coordinate. -/
theorem Usable.ends {s : PX K} {x y : List K} (h : Usable D H s x y) :
    ∃ x0 x1, x.head? = some x0 ∧ x.getLast? = some x1 ∧ x0 ≤ x1 ∧ (2 ≤ x.length → x0 < x1) ∧
      ∀ t : PX K, t.x = some x → Extraction.ends t = .ok (x0, x1) := by
  have hp : 0 < x.length := List.length_pos_iff.2 h.ne
  have hl : x.length - 1 < x.length := by omega
  have e0 : x[0]? = some x[0] := List.getElem?_eq_getElem hp
  have e1 : x[x.length - 1]? = some x[x.length - 1] := List.getElem?_eq_getElem hl
  have hh : x.head? = some x[0] := by rw [List.head?_eq_getElem?, e0]
  have hla : x.getLast? = some x[x.length - 1] := by rw [List.getLast?_eq_getElem?, e1]
  refine ⟨_, _, hh, hla, index_mono h.ready.inc e0 e1 (by omega), ?_, ?_⟩
  · intro h2
    exact List.pairwise_iff_getElem.1 h.ready.inc 0 (x.length - 1) hp hl (by omega)
  · intro t ht
    unfold Extraction.ends
    rw [ht]
    simp only [hh, hla]

/-- Sensible variables can be completed, and give a sensible job. -/
theorem defaults_tot {s : PX K} {x y : List K} (h : Usable D H s x y) :
    ∃ t J, defaultvars D s = (.ok (), t) ∧ jobOf H t = .ok J ∧ J.x ≠ [] ∧ 0 ≤ J.cres ∧ J.funcs ≠ [] ∧
      (∀ p ∈ J.ip, p.removable = true) ∧ 
      ((∀ a ∈ x, (∀ l, s.rng.bind Prod.fst = some l → l ≤ a) ∧ (∀ h, s.rng.bind Prod.snd = some h → a ≤ h)) → J.x = x) ∧
      (H.peaks (s.initialPeaks.getD D.noPeaks) = [] → J.ip = []) ∧
      ∃ bl cr pf em, t.baseline = some (.inst bl) ∧ t.cres = some cr ∧ 0 ≤ cr ∧ t.pf = some pf ∧ H.funcs pf ≠ [] ∧
        t.errorMethod = some em := by
  obtain ⟨x0, x1, h0, h1, hle, hlt, hends⟩ := h.ends
  have hr := h.ready
  obtain ⟨dy, hdy, hldy⟩ := hr.hasdy
  -- cres
  obtain ⟨cr, hcr, ecr⟩ : ∃ cr, 0 ≤ cr ∧ defCres s = (.ok (), { s with cres := some cr }) := by
    unfold defCres
    cases hc : s.cres with
    | some v => exact ⟨v, h.cres v hc, by simp only; rw [← hc]⟩
    | none =>
      simp only [hends s hr.hasx, hr.hasx]
      refine ⟨_, ?_, rfl⟩
      have : (0 : K) ≤ x.length := Nat.cast_nonneg _
      exact div_nonneg (mul_nonneg (by norm_num) (sub_nonneg.2 hle)) this
  generalize hs1 : ({ s with cres := some cr } : PX K) = s1 at ecr
  -- uncertainties
  have hyne : y ≠ [] := by
    intro h0'
    have := hr.leny
    rw [h0'] at this
    exact h.ne (List.length_eq_zero_iff.1 this.symm)
  obtain ⟨e, eeff⟩ : ∃ e, defEffdy s1 = (.ok (), { s1 with effdy := .array e }) := by
    have hx1 : s1.x = some x := by rw [← hs1]; exact hr.hasx
    have hy1 : s1.y = some y := by rw [← hs1]; exact hr.hasy
    have hd1 : s1.dy = some dy := by rw [← hs1]; exact hdy
    have he1 : s1.effdy = s.effdy := by rw [← hs1]
    rw [defEffdy_ok s1 x y dy hx1 hy1 hd1 hyne]
    unfold effOf
    rw [he1]
    cases he : s.effdy with
    | array l => exact ⟨l, rfl⟩
    | scalar v => simp only [if_pos (h.eff v he)]; exact ⟨_, rfl⟩
    | unset =>
      simp only
      split
      · exact ⟨_, rfl⟩
      · obtain ⟨b, l, rfl⟩ := List.exists_cons_of_ne_nil hyne
        exact ⟨_, rfl⟩
  generalize hs2 : ({ s1 with effdy := .array e } : PX K) = s2 at eeff
  -- peak functions
  obtain ⟨pf, hpf, epf⟩ : ∃ pf, H.funcs pf ≠ [] ∧ defPf D s2 = (.ok (), { s2 with pf := some pf }) := by
    have hp2 : s2.pf = s.pf := by rw [← hs2, ← hs1]
    have hx2 : s2.x = some x := by rw [← hs2, ← hs1]; exact hr.hasx
    unfold defPf
    rw [hp2]
    cases hc : s.pf with
    | some v =>
      refine ⟨v, h.pf v hc, ?_⟩
      simp only
      rw [← hc, ← hp2]
    | none =>
      have hw := h.wide hc
      simp only [hends s2 hx2]
      rw [if_neg (by rw [not_le]; exact sub_pos.2 (hlt hw.1))]
      exact ⟨_, hw.2 _, rfl⟩
  generalize hs3 : ({ s2 with pf := some pf } : PX K) = s3 at epf
  -- range
  have hx3 : s3.x = some x := by rw [← hs3, ← hs2, ← hs1]; exact hr.hasx
  have hrng3 : s3.rng = s.rng := by rw [← hs3, ← hs2, ← hs1]
  have erng : defRng s3 = (.ok (), { s3 with rng := some (some (rangeOf s x0 x1).1, some (rangeOf s x0 x1).2) }) := by
    unfold defRng rangeOf
    rw [← hrng3]
    split
    · rename_i a b hab
      simp only [hab, Option.bind_some, Option.getD_some]
      rw [← hab]
    · rw [hends s3 hx3]
  obtain ⟨a, hax, hal, hah⟩ := h.inside
  obtain ⟨i, hi, hia⟩ := List.getElem_of_mem hax
  have hx0a : x0 ≤ a := by
    have e0 : x[0]? = some x0 := by rw [← List.head?_eq_getElem?]; exact h0
    exact index_mono hr.inc e0 (by rw [List.getElem?_eq_getElem hi, hia]) (by omega)
  have hax1 : a ≤ x1 := by
    have e1 : x[x.length - 1]? = some x1 := by rw [← List.getLast?_eq_getElem?]; exact h1
    exact index_mono hr.inc (by rw [List.getElem?_eq_getElem hi, hia]) e1 (by omega)
  have hla : (rangeOf s x0 x1).1 ≤ a := by
    unfold rangeOf
    cases hc : s.rng.bind Prod.fst with
    | none => exact hx0a
    | some l => exact hal l hc
  have hra : a ≤ (rangeOf s x0 x1).2 := by
    unfold rangeOf
    cases hc : s.rng.bind Prod.snd with
    | none => exact hax1
    | some l => exact hah l hc
  obtain ⟨lo, hi', eg, g1, g2, giff⟩ := (c40_range_slice x (hr.inc.imp le_of_lt) (rangeOf s x0 x1).1 (rangeOf s x0 x1).2 x0 x1 h0 h1).1
    ⟨le_trans hla hax1, le_trans hx0a hra⟩
  have hii := (giff i hi).2 (by rw [hia]; exact ⟨hla, hra⟩)
  generalize hs4 : ({ s3 with rng := some (some (rangeOf s x0 x1).1, some (rangeOf s x0 x1).2) } : PX K) = s4 at erng
  have hx4 : s4.x = some x := by rw [← hs4]; exact hx3
  have hy4 : s4.y = some y := by rw [← hs4, ← hs3, ← hs2, ← hs1]; exact hr.hasy
  have hr4 : s4.rng = some (some (rangeOf s x0 x1).1, some (rangeOf s x0 x1).2) := by rw [← hs4]
  -- baseline
  obtain ⟨bl, ebl⟩ : ∃ bl, defBaseline D s4 = (.ok (), { s4 with baseline := some (.inst bl) }) := by
    have hb4 : s4.baseline = s.baseline := by rw [← hs4, ← hs3, ← hs2, ← hs1]
    unfold defBaseline
    rcases hc : s4.baseline with _ | ⟨f | i⟩
    · exact ⟨_, rfl⟩
    · have hsel : selected s4 = .ok (getSlice x (some (lo, hi')), getSlice y (some (lo, hi'))) := by
        unfold selected
        rw [hx4, hy4, hr4]
        simp only [eg, Int.toNat_natCast]
      simp only [hsel]
      cases hest : D.estimate f (getSlice x (some (lo, hi'))) (getSlice y (some (lo, hi'))) with
      | ok b => exact ⟨b, rfl⟩
      | error er =>
        rcases h.base f (by rw [← hb4, hc]) _ _ _ hest with rfl | rfl
        · exact ⟨_, rfl⟩
        · exact ⟨_, rfl⟩
    · refine ⟨i, ?_⟩
      simp only
      rw [← hc]
  have hdv : defaultvars D s = (.ok (), defRest D { s4 with baseline := some (.inst bl) }) := by
    unfold defaultvars
    rw [ecr]; simp only [andThen]
    rw [eeff]; simp only
    rw [epf]; simp only
    rw [erng]; simp only
    rw [ebl]
  have hcr4 : s4.cres = some cr := by rw [← hs4, ← hs3, ← hs2, ← hs1]
  have hpf4 : s4.pf = some pf := by rw [← hs4, ← hs3]
  have hef4 : s4.effdy = .array e := by rw [← hs4, ← hs3, ← hs2]
  have hip4 : s4.initialPeaks = s.initialPeaks := by rw [← hs4, ← hs3, ← hs2, ← hs1]
  refine ⟨_, ⟨getSlice x (some (lo, hi')), getSlice y (some (lo, hi')), getSlice e (some (lo, hi')), H.base bl,
    H.peaks (s.initialPeaks.getD D.noPeaks), cr, s4.errorMethod.getD D.aic, H.funcs pf⟩, hdv, ?_, ?_, hcr, hpf, h.ip, ?_,
    fun h => h, bl, cr, pf, _, rfl, hcr4, hcr, hpf4, hpf, rfl⟩
  · unfold jobOf defRest
    simp only [hx4, hy4, hef4, hr4, hcr4, hpf4, hip4, eg, Int.toNat_natCast]
  · exact slice_ne (by omega) (by omega)
  · intro hn
    have hall : ∀ j : ℕ, j < x.length → lo ≤ j ∧ j < hi' := by
      intro j hj
      rw [giff j hj]
      unfold rangeOf
      have e0 : x[0]? = some x0 := by rw [← List.head?_eq_getElem?]; exact h0
      have e1 : x[x.length - 1]? = some x1 := by rw [← List.getLast?_eq_getElem?]; exact h1
      have hnj := hn _ (List.getElem_mem hj)
      refine ⟨?_, ?_⟩
      · cases hc : s.rng.bind Prod.fst with
        | none => exact index_mono hr.inc e0 (List.getElem?_eq_getElem hj) (by omega)
        | some l => exact hnj.1 l hc
      · cases hc : s.rng.bind Prod.snd with
        | none => exact index_mono hr.inc (List.getElem?_eq_getElem hj) e1 (by omega)
        | some l => exact hnj.2 l hc
    have hp : 0 < x.length := List.length_pos_iff.2 h.ne
    have a0 := (hall 0 hp).1
    have a1 := (hall (x.length - 1) (by omega)).2
    show getSlice x (some (lo, hi')) = x
    have : lo = 0 := by omega
    have : hi' = x.length := by omega
    subst_vars
    simp [getSlice, bounds]

/-- A deeper search has sensible variables. -/
theorem sub_usable (hN : H.peaks D.noPeaks = []) {t : PX K} {bl pf : ℕ} {cr : K} (h1 : t.baseline = some (.inst bl)) (h2 : t.cres = some cr)
    (h3 : 0 ≤ cr) (h4 : t.pf = some pf) (h5 : H.funcs pf ≠ []) {r y e : List K} (hd : Data r y e)
    (hne : r ≠ []) :
    ∃ u, subSearch D t r y e = .ok u ∧ Usable D H u r y ∧ u.initialPeaks = some D.noPeaks ∧
      ∃ r0 r1, r.head? = some r0 ∧ r.getLast? = some r1 ∧ u.rng = some (some r0, some r1) := by
  have hset : setdata ({} : PX K) r y none (some e) = (.ok (),
      { x := some r, y := some y, dx := some (r.map (fun _ => 0)), dy := some e }) := by
    unfold setdata
    rw [if_neg (by simp [hd.leny])]
    simp only [Option.getD_none, Option.getD_some, List.length_map]
    rw [if_neg (by simp [hd.lene])]
  have hl : setLoop [.baseline t.baseline, .cres t.cres, .pf t.pf, .error_method t.errorMethod]
      ({ x := some r, y := some y, dx := some (r.map (fun _ => 0)), dy := some e } : PX K) = (.ok (),
      { x := some r, y := some y, dx := some (r.map (fun _ => 0)), dy := some e, baseline := t.baseline,
        cres := t.cres, pf := t.pf, errorMethod := t.errorMethod }) := rfl
  generalize hu0 : ({ x := some r, y := some y, dx := some (r.map (fun _ => 0)), dy := some e, baseline := t.baseline, cres := t.cres, pf := t.pf, errorMethod := t.errorMethod } : PX K) = u0 at hl
  obtain ⟨a, l, hal⟩ := List.exists_cons_of_ne_nil hne
  have hus : Usable D H u0 r y := by
    rw [← hu0]
    refine ⟨⟨rfl, rfl, ⟨e, rfl, hd.lene⟩, by intro l hl; simp at hl, hd.inc, hd.leny⟩, ⟨a, by rw [hal]; simp, by simp, by simp⟩,
      by intro v hv; simp at hv, ?_, ?_, ?_, ?_, ?_⟩
    · intro v hv
      simp only [h2, Option.some.injEq] at hv
      rw [← hv]; exact h3
    · intro f hf
      simp only [h4, Option.some.injEq] at hf
      rw [← hf]; exact h5
    · intro hf; simp [h4] at hf
    · intro f hf; simp [h1] at hf
    · simp [hN]
  obtain ⟨u, J, hdv, hJ, -⟩ := defaults_tot hus
  have hok : subSearch D t r y e = .ok u := by
    unfold subSearch
    rw [hset]
    simp only
    unfold setvars
    rw [hl]
    simp only [andThen]
    rw [hdv]
  obtain ⟨hr', q1, q2, q3, q4, q5⟩ := subSearch_ready hd hok
  have hdef := defaulted hdv
  have hp : 0 < r.length := List.length_pos_iff.2 hne
  have hh : r.head? = some r[0] := by rw [List.head?_eq_getElem?, List.getElem?_eq_getElem hp]
  have hla : r.getLast? = some r[r.length - 1] := by
    rw [List.getLast?_eq_getElem?, List.getElem?_eq_getElem (show r.length - 1 < r.length by omega)]
  have hrng := hdef.rng r r[0] r[r.length - 1] (by rw [← hu0]) hh hla
  have hrng' : u.rng = some (some r[0], some r[r.length - 1]) := by
    rw [hrng]
    unfold rangeOf
    rw [← hu0]
    rfl
  refine ⟨u, hok, ⟨hr', ?_, ?_, ?_, ?_, ?_, ?_, ?_⟩, q2, _, _, hh, hla, hrng'⟩
  · refine ⟨r[0], List.getElem_mem hp, ?_, ?_⟩
    · intro l hl; rw [hrng'] at hl; simp at hl; rw [hl]
    · intro l hl
      rw [hrng'] at hl
      simp at hl
      rw [← hl]
      exact index_mono hd.inc (List.getElem?_eq_getElem hp) (List.getElem?_eq_getElem (show r.length - 1 < r.length by omega)) (by omega)
  · intro v hv
    obtain ⟨_, _, e', _, _, _, _, _, _, _, _, _, -, -, h3', -⟩ := jobOf_ok hJ
    rw [h3'] at hv; simp at hv
  · intro v hv
    rw [q4 cr h2] at hv
    simp only [Option.some.injEq] at hv
    rw [← hv]; exact h3
  · intro f hf
    rw [q1 pf h4] at hf
    simp only [Option.some.injEq] at hf
    rw [← hf]; exact h5
  · intro hf; rw [q1 pf h4] at hf; simp at hf
  · intro f hf; rw [q3 bl h1] at hf; simp at hf
  · rw [q2]; simp [hN]

/-! ### The recursion -/

theorem recEnds_none : RecEnds V (none : Deeper K) := by
  intro f h; simp at h

/-- What the recursive calls find is what the estimates supply (as in `extract_found`). -/
theorem rec_finds (hS : Sane W) (hE : Estimates W) (hN : H.peaks D.noPeaks = []) {n depth : ℕ} {t : PX K} {J : Job K}
    (hJ : jobOf H t = .ok J) :
    Finds (if depth < 3 then some (fun r y e =>
        match subSearch D t r y e with
        | .error e => .error e
        | .ok t => extractSingle W H D n (depth + 1) t)
      else none) (Supplied W.func J.funcs) := by
  intro f hf r y' e c' hd hc
  split at hf
  · simp only [Option.some.injEq] at hf
    subst hf
    simp only at hc
    split at hc
    · simp at hc
    · rename_i t' ht'
      obtain ⟨hr', hpf, hip, -, -, -⟩ := subSearch_ready hd ht'
      obtain ⟨t2, J2, hd2, hj2, -, -, hfound⟩ := extract_found hS hE hN n (depth + 1) t' c' r y' hr' hc
      have hdef2 := defaulted hd2
      obtain ⟨_, _, _, _, _, _, ip, _, _, pf, _, _, -, -, -, -, -, -, -, -, hpf1, -, rfl⟩ := jobOf_ok hJ
      obtain ⟨_, _, _, _, _, _, ip2, _, _, pf2, _, _, -, -, -, -, -, hip2, -, -, hpf2, -, rfl⟩ := jobOf_ok hj2
      have e1 := hdef2.pf _ (hpf _ hpf1)
      rw [hpf2, Option.some.injEq] at e1
      have e2 := hdef2.ip
      rw [hip2, hip, Option.some.injEq, Option.getD_some] at e2
      subst e1 e2
      rcases hfound.model with ⟨m, hm, hk⟩ | ⟨-, hk⟩
      · simp only [hN, List.nil_append] at hk
        exact hm.of_kept hk
      · exact hk
  · simp at hf

theorem extract_tot (hS : Sane W) (hC : Calm W) (hE : Estimates W) (hN : H.peaks D.noPeaks = []) (hV : V ∨ Confined W) :
    ∀ (n depth : ℕ) (s : PX K) (x y : List K) (v : K), 1 ≤ n → 1 ≤ depth → 4 ≤ n + depth → Usable D H s x y → x.head? = some v →
    EndsOr V (depth = 1 ∧ ¬ Regular W) (extractSingle W H D n depth s) (fun c => s.initialPeaks = some D.noPeaks → depth ≠ 1 →
      (∀ a ∈ x, (∀ l, s.rng.bind Prod.fst = some l → l ≤ a) ∧ (∀ h, s.rng.bind Prod.snd = some h → a ≤ h)) →
      Right V v c.model) := by
  intro n
  induction n with
  | zero => intro depth s x y v h; omega
  | succ n ih =>
    intro depth s x y v _ hdep hn hu hv
    obtain ⟨t, J, hdv, hJ, hne, hcres, hfun, hip, hwhole, hipe, bl, cr, pf, em, t1, t2, t3, t4, t5, t6⟩ := defaults_tot hu
    have hdef := defaulted hdv
    have hdata := job_data hu.ready hdef hJ
    unfold extractSingle
    rw [hdv]
    simp only
    rw [hJ]
    simp only
    have hrec : RecEnds V (if depth < 3 then some (fun r y e =>
        match subSearch D t r y e with
        | .error e => .error e
        | .ok t => extractSingle W H D n (depth + 1) t)
      else none) := by
      split
      · rename_i hd
        intro f hf r y' e w hdat hw
        simp only [Option.some.injEq] at hf
        subst hf
        have hr0 : r ≠ [] := by intro h0; rw [h0] at hw; simp at hw
        obtain ⟨u, hsub, huu, hui, r0, r1, e0, e1, hrng⟩ := sub_usable hN t1 t2 t3 t4 t5 hdat hr0
        simp only [hsub]
        refine Ends.mono ((ih (depth + 1) u r y' w (by omega) (by omega) (by omega) huu hw).resolve_right (fun h => ?_)) ?_
        · have := h.1.1; omega
        intro c _ hc
        refine hc hui (by omega) ?_
        intro a ha
        rw [hrng]
        simp only [Option.bind_some, Option.some.injEq, forall_eq']
        obtain ⟨i, hi, hia⟩ := List.getElem_of_mem ha
        have ei : r[i]? = some a := by rw [List.getElem?_eq_getElem hi, hia]
        rw [List.head?_eq_getElem?] at e0
        rw [List.getLast?_eq_getElem?] at e1
        exact ⟨index_mono hdat.inc e0 ei (by omega), index_mono hdat.inc ei e1 (by omega)⟩
      · exact recEnds_none
    obtain ⟨w, l, hw⟩ := List.exists_cons_of_ne_nil hne
    have hw' : J.x.head? = some w := by rw [hw]; rfl
    refine (search_tot hS hC hV (supplies hE J) (fun k hk => hk.2.1) (rec_finds hS hE hN hJ) hrec hdata hw' hcres hfun hip).mono (fun h => ⟨by simpa using h.1, h.2⟩) ?_
    intro c _ hc hi hd hr
    rw [hwhole hr, hv, Option.some.injEq] at hw'
    subst hw'
    refine hc (hipe ?_) (by simpa using hd)
    rw [hi]
    simp [hN]

/-! ### The properties -/

/-- **C85.** A call of `extract_single` (nested at most three deep, `c71_depth`) on sensible data and variables, with an
optimiser and peak functions that fail only by SrMiseFitError and SrMiseEstimationError, returns or raises ValueError, or — if the
covariance of some fit would be singular — TypeError; it raises nothing else, whatever the data and the numerics. -/
theorem c85_only_value_error (hS : Sane W) (hC : Calm W) (hE : Estimates W) (hN : H.peaks D.noPeaks = []) {s : PX K}
    {x y : List K} (hu : Usable D H s x y) :
    (∃ c, extractSingle W H D 3 1 s = .ok c) ∨ extractSingle W H D 3 1 s = .error .value ∨
    (¬ Regular W ∧ extractSingle W H D 3 1 s = .error .type) := by
  obtain ⟨v, -, hv, -⟩ := hu.ends
  rcases extract_tot (V := True) hS hC hE hN (Or.inl trivial) 3 1 s x y v (by omega) (by omega) (by omega) hu hv with
    (⟨c, h, -⟩ | ⟨-, h⟩) | ⟨⟨-, hR⟩, h⟩
  · exact Or.inl ⟨c, h⟩
  · exact Or.inr (Or.inl h)
  · exact Or.inr (Or.inr ⟨hR, h⟩)

/-- **C85.** If besides no fit and no estimate puts a peak onto or left of the first point of its cluster, and no covariance is
singular, the call returns. -/
theorem c85_total (hS : Sane W) (hC : Calm W) (hE : Estimates W) (hN : H.peaks D.noPeaks = []) (hW : Confined W) (hR : Regular W) {s : PX K}
    {x y : List K} (hu : Usable D H s x y) : ∃ c, extractSingle W H D 3 1 s = .ok c := by
  obtain ⟨v, -, hv, -⟩ := hu.ends
  rcases extract_tot (V := False) hS hC hE hN (Or.inr hW) 3 1 s x y v (by omega) (by omega) (by omega) hu hv with
    (⟨c, h, -⟩ | ⟨h, -⟩) | ⟨⟨-, h⟩, -⟩
  · exact ⟨c, h⟩
  · exact h.elim
  · exact absurd hR h

/-! ### Instances -/

theorem pickBest_one : PicksOne pickBest := by
  intro l hl
  unfold pickBest
  cases h : (List.range l.length).find? (unbeaten l) with
  | none => exact List.length_pos_iff.2 hl
  | some i => exact List.mem_range.1 (List.mem_of_find?_eq_some h)

theorem dotWorld_calm : Calm dotWorld where
  sorts := fun _ => ⟨mergeAs_sorts, fun _ => mergeAs_sorts⟩
  fit := by intro c m e _ h; simp [dotWorld, dotEnv] at h
  pfit := by intro c out m e _ h; simp [dotWorld, dotEnv] at h
  cfit := by intro c m e _ h; simp [dotWorld, dotEnv] at h
  est := fun c => orRaise_cases _
  rated := by
    intro k
    refine ⟨"AIC", fun c _ => ⟨fun m b => ⟨rfl, _, rfl⟩, fun out m => ⟨fun b => ⟨rfl, _, rfl⟩, fun i => ⟨rfl, _, rfl⟩⟩⟩⟩
  pick := pickBest_one
  eqv := fun _ => rfl

theorem dotVars_usable (rng : Option (Option ℚ × Option ℚ)) (h : rng = none ∨ rng = some (some 1, some 5)) :
    Usable dotDef dotHeap (dotVars none rng) [0, 1, 2, 3, 4, 5, 6] [0, 3, 5, 0, 2, 0, 1] where
  ready := dotVars_ready _ _
  inside := by
    refine ⟨2, by simp, ?_⟩
    rcases h with rfl | rfl
    · simp [dotVars]
    · simp [dotVars]; norm_num
  eff := by intro v h; simp [dotVars] at h
  cres := by intro v h; simp [dotVars] at h; rw [← h]; norm_num
  pf := by intro f _; simp [dotHeap]
  wide := by intro h; simp [dotVars] at h
  base := by intro f h; simp [dotVars] at h
  ip := by intro p hp; simp [dotVars, dotHeap, dotDef] at hp

/-- `dotWorld`, except that the peak is estimated only right of the first point, and scaling leaves peaks where they
are. -/
def tightWorld : World ℚ :=
  { dotWorld with
    env := fun c => { dotEnv c with estimate := orRaise (match c.slice.bind (fun s => (s.get c.r).head?) with
      | none => none
      | some v => (dotEst c).filter (fun p => decide (v < pos p))) }
    sc := fun p _ s => if pos { p with pars := (p.pars.set 1 (s * p.pars.getD 1 0)) } = pos p then .ok (p.pars.set 1 (s * p.pars.getD 1 0)) else .error .value }

theorem tightWorld_sane : Sane tightWorld where
  sorts := mergeAs_sorts
  scales := by
    intro p x s v h
    simp only [tightWorld] at h
    split at h
    · simp only [Except.ok.injEq] at h
      rw [← h, List.length_set]
    · simp at h
  tame := fun _ => ⟨mergeAs_sorts, fun _ => frames_refl _, fun _ => List.Sublist.refl _, fun _ => rfl⟩
  ptame := fun _ _ => ⟨mergeAs_sorts, fun _ => frames_refl _, fun _ => List.Sublist.refl _, fun _ => rfl⟩
  ctame := fun _ => ⟨mergeAs_sorts, fun _ => frames_refl _, fun _ => List.Sublist.refl _, fun _ => rfl⟩

theorem tightWorld_calm : Calm tightWorld where
  sorts := fun _ => ⟨mergeAs_sorts, fun _ => mergeAs_sorts⟩
  fit := by intro c m e _ h; simp [tightWorld, dotEnv] at h
  pfit := by intro c out m e _ h; simp [tightWorld, dotWorld, dotEnv] at h
  cfit := by intro c m e _ h; simp [tightWorld, dotWorld, dotEnv] at h
  est := fun c => orRaise_cases _
  rated := by
    intro k
    refine ⟨"AIC", fun c _ => ⟨fun m b => ⟨rfl, _, rfl⟩, fun out m => ⟨fun b => ⟨rfl, _, rfl⟩, fun i => ⟨rfl, _, rfl⟩⟩⟩⟩
  pick := pickBest_one
  eqv := fun _ => rfl

theorem tight_estimate {c : Cluster ℚ} {p : Part ℚ} (h : (tightWorld.env c).estimate = .ok (some p)) :
    ∃ v, c.slice.bind (fun s => (s.get c.r).head?) = some v ∧ dotEst c = some p ∧ v < pos p := by
  have h' : (match c.slice.bind (fun s => (s.get c.r).head?) with
      | none => none
      | some v => (dotEst c).filter (fun p => decide (v < pos p))) = some p := orRaise_some h
  split at h'
  · simp at h'
  · rename_i v hv
    rw [Option.filter_eq_some_iff] at h'
    exact ⟨v, hv, h'.1, by simpa using h'.2⟩

theorem tightWorld_estimates : Estimates tightWorld := by
  intro c p h
  obtain ⟨-, -, h, -⟩ := tight_estimate h
  exact dotWorld_estimates c p (by simp [dotWorld, dotEnv, h, orRaise])

theorem tightWorld_confined : Confined tightWorld where
  fit := fun c v _ m hm p hp => hm p hp
  est := by
    intro c v ⟨s, h1, h2⟩ p hp
    obtain ⟨w, e1, -, e2⟩ := tight_estimate hp
    rw [h1, Option.bind_some, h2, Option.some.injEq] at e1
    rw [e1]; exact e2
  pfit := fun c v _ out m hm p hp => hm p hp
  still := by
    intro p a s l h
    have h' : (if pos { p with pars := (p.pars.set 1 (s * p.pars.getD 1 0)) } = pos p then
        (.ok (p.pars.set 1 (s * p.pars.getD 1 0)) : Res (List ℚ)) else .error .value) = .ok l := h
    split at h'
    · rename_i e
      simp only [Except.ok.injEq] at h'
      rw [← h']; exact e
    · simp at h'

/-- Instance of C85: the hypotheses hold of data with and without a range; both searches find peaks. -/
example : Sane tightWorld ∧ Calm tightWorld ∧ Estimates tightWorld ∧ Confined tightWorld ∧ Regular tightWorld ∧
    dotHeap.peaks dotDef.noPeaks = [] ∧
    Usable dotDef dotHeap (dotVars none none) [0, 1, 2, 3, 4, 5, 6] [0, 3, 5, 0, 2, 0, 1] ∧
    Usable dotDef dotHeap (dotVars none (some (some 1, some 5))) [0, 1, 2, 3, 4, 5, 6] [0, 3, 5, 0, 2, 0, 1] ∧
    shown (extractSingle tightWorld dotHeap dotDef 3 1 (dotVars none none)) = some [(7, [1, 3]), (7, [2, 5]), (7, [4, 2]), (7, [6, 1])] :=
  ⟨tightWorld_sane, tightWorld_calm, tightWorld_estimates, tightWorld_confined, (by intro c m _ h; simp [tightWorld, dotWorld, dotEnv] at h), rfl, dotVars_usable _ (Or.inl rfl),
    dotVars_usable _ (Or.inr rfl), by decide +kernel⟩

/-- Instance of `c85_only_value_error`: the search with estimates at any point. -/
example :=
  c85_only_value_error dotWorld_sane dotWorld_calm dotWorld_estimates rfl (dotVars_usable _ (Or.inl rfl))

/-! ### Peaks that leave their cluster -/

/-- Fits move all peaks to 3/2. -/
def strayEnv (c : Cluster ℚ) : Env ℚ where
  quality _ _ := ⟨"AIC", false, some 0, none⟩
  growth _ _ := false
  lsq ps := (.ok (), ps.map (fun p => { p with pars := [3/2, 1] }))
  estimate := .ok (some (dot (c.funcs.headD 7) ((c.slice.bind (fun s => (s.get c.r).head?)).getD 0) 1 true))
  clean := id
  as := mergeAs

def strayWorld : World ℚ where
  env := strayEnv
  pruneEnv c := ⟨fun _ => strayEnv c, fun _ _ _ => ⟨"AIC", false, some 0, none⟩⟩
  pick := pickBest
  as := mergeAs
  val p a := if p.owner.id = 0 then 0 else dotVal p a
  sc p _ _ := .ok p.pars
  eqv _ _ := true
  minpoints _ _ := 1
  func := dotOwner

def strayVars : PX ℚ :=
  { x := some [0, 1, 2, 3, 4, 5, 6, 7, 8, 9], y := some [0, 0, 0, 0, 0, 9, 7, 8, 6, 5], dx := some [0, 0, 0, 0, 0, 0, 0, 0, 0, 0], dy := some [1/4, 1/4, 1/4, 1/4, 1/4, 1/4, 1/4, 1/4, 1/4, 1/4], pf := some 1, cres := some 1 }

/-- **C85 (finding).** The ValueError does occur: if the peaks of the cluster that reaches the end of the data have been
fitted well left of it, then the data between them are none, as the border is taken to be the point whose *index* is the
number of the cluster, and the maximum of no data is asked for. -/
theorem c85_stray :
    Calm strayWorld ∧ Usable dotDef dotHeap strayVars [0, 1, 2, 3, 4, 5, 6, 7, 8, 9] [0, 0, 0, 0, 0, 9, 7, 8, 6, 5] ∧
    raised (extractSingle strayWorld dotHeap dotDef 3 1 strayVars) = some .value := by
  refine ⟨⟨fun _ => ⟨mergeAs_sorts, fun _ => mergeAs_sorts⟩, ?_, ?_, ?_, fun c => Or.inr ⟨_, rfl⟩, ?_, pickBest_one, fun _ => rfl⟩, ⟨⟨rfl, rfl, ⟨_, rfl, rfl⟩, ?_, by decide +kernel, rfl⟩, ⟨2, by simp, ?_⟩, ?_, ?_, ?_, ?_, ?_, ?_⟩, by decide +kernel⟩
  · intro c m e _ h; simp [strayWorld, strayEnv] at h
  · intro c out m e _ h; simp [strayWorld, strayEnv] at h
  · intro c m e _ h; simp [strayWorld, strayEnv] at h
  · intro k
    exact ⟨"AIC", fun c _ => ⟨fun m b => ⟨rfl, _, rfl⟩, fun out m => ⟨fun b => ⟨rfl, _, rfl⟩, fun i => ⟨rfl, _, rfl⟩⟩⟩⟩
  · intro e h; simp [strayVars] at h
  · simp [strayVars]
  · intro v h; simp [strayVars] at h
  · intro v h; simp [strayVars] at h; rw [← h]; norm_num
  · intro f _; simp [dotHeap]
  · intro h; simp [strayVars] at h
  · intro f h; simp [strayVars] at h
  · intro p hp; simp [strayVars, dotHeap, dotDef] at hp

end Verif.Parts.Extract
