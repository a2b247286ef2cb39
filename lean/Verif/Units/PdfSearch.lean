import Verif.Units.PdfSpec

/-! # Lemmas for C106: the calls of `PDFPeakExtraction` in other units -/

set_option linter.unusedSectionVars false

namespace Verif.Parts.Units

open Verif.Py Verif.PeakList Verif.Parts.ModelCluster Verif.Parts.Extract Verif.Extraction Verif.Pdf Verif.Parts.PdfExtract

variable {K : Type} [Field K] [LinearOrder K] [IsStrictOrderedRing K]

variable {u : Change K} {W W' : World K} {D D' : Defaults K} {S S' : Sampler K}

/-- The complete variables in the new units. -/
def Change.par (u : Change K) (P : Par K) : Par K :=
  { P with x := u.xs P.x, y := u.ys P.y, eff := u.eff P.eff, a := u.a * P.a, b := u.a * P.b, x0 := u.a * P.x0, x1 := u.a * P.x1, q := P.q / u.a, cres := u.a * P.cres }

theorem pos_q (hu : u.Sensible) (q : K) : 0 < q / u.a ↔ 0 < q := div_pos_iff_of_pos_right hu.a

theorem zero_q (hu : u.Sensible) (q : K) : q / u.a = 0 ↔ q = 0 := by simp [hu.a.ne']

theorem over_q (pi q : K) : pi / (q / u.a) = u.a * (pi / q) := by rw [div_div_eq_mul_div]; ring

theorem chooseQmax_units (s : PPX K) : chooseQmax (u.pvars s) = chooseQmax s / u.a := by
  obtain ⟨b, q, n, sc, ss, qr, qd⟩ := s
  unfold chooseQmax
  cases q with
  | some q => rfl
  | none =>
    cases qr with
    | some q => rfl
    | none =>
      cases qd with
      | some q => rfl
      | none => simp [Change.pvars]

theorem chooseCres_units (hu : u.Sensible) (pi q : K) (c : Option K) :
    chooseCres pi (q / u.a) (c.map (fun v => u.a * v)) = (chooseCres pi q c).map (fun v => u.a * v) := by
  unfold chooseCres
  cases c with
  | some c => rfl
  | none =>
    simp only [Option.map_none, pos_q hu, over_q]
    split <;> rfl

/-- The defaults, if the peak functions are given. -/
theorem pdefaultvars_units (hu : u.Sensible) (hD : DefaultsAlike u D D') (pi : K) (s : PPX K) (hpf : s.base.pf.isSome = true) :
    pdefaultvars pi D' (u.pvars s) = ((pdefaultvars pi D s).1, u.pvars (pdefaultvars pi D s).2) := by
  unfold pdefaultvars
  simp only [chooseQmax_units]
  obtain ⟨b, q, n, sc, ss, qr, qd⟩ := s
  obtain ⟨pf, hpf⟩ := Option.isSome_iff_exists.1 hpf
  have hpf : b.pf = some pf := hpf
  have hpf' : (u.vars b).pf = some pf := hpf
  have hc : chooseCres pi (chooseQmax (⟨b, q, n, sc, ss, qr, qd⟩ : PPX K) / u.a) (u.vars b).cres =
      (chooseCres pi (chooseQmax (⟨b, q, n, sc, ss, qr, qd⟩ : PPX K)) b.cres).map (fun v => u.a * v) := chooseCres_units hu _ _ _
  simp only [Change.pvars, pos_q hu, hpf, hpf', Option.getD_some, hc]
  generalize chooseQmax (⟨b, q, n, sc, ss, qr, qd⟩ : PPX K) = Q
  have := defaultvars_units hu hD ({ b with cres := chooseCres pi Q b.cres, pf := some pf } : PX K)
  have e : ({ u.vars b with cres := (chooseCres pi Q b.cres).map (fun v => u.a * v), pf := some pf } : PX K) =
      u.vars { b with cres := chooseCres pi Q b.cres, pf := some pf } := rfl
  rw [e, this]
  rfl

theorem complete_units (s : PPX K) : complete (u.pvars s) = (complete s).map u.par := by
  obtain ⟨⟨x, y, dx, dy, eff, rng, pf, ip, bl, cres, em⟩, q, n, sc, ss, qr, qd⟩ := s
  cases x with
  | none => rfl
  | some x =>
  cases y with
  | none => rfl
  | some y =>
  cases rng with
  | none => rfl
  | some r =>
  obtain ⟨p, r⟩ := r
  cases p with
  | none => rfl
  | some p =>
  cases r with
  | none => rfl
  | some r =>
  have e1 : (u.xs x).head? = x.head?.map (fun v => u.a * v) := by simp [Change.xs]
  have e2 : (u.xs x).getLast? = x.getLast?.map (fun v => u.a * v) := by simp [Change.xs]
  show (need1 (u.xs x).head? >>= fun x0 => need1 (u.xs x).getLast? >>= fun x1 => _) = Except.map _ (need1 x.head? >>= fun x0 => need1 x.getLast? >>= fun x1 => _)
  rw [e1, e2]
  cases x.head? with
  | none => rfl
  | some x0 =>
  cases x.getLast? with
  | none => rfl
  | some x1 =>
  cases q with
  | none => rfl
  | some q =>
  cases n with
  | none => rfl
  | some n =>
  cases sc with
  | none => rfl
  | some sc =>
  cases ss with
  | none => rfl
  | some ss =>
  cases cres with
  | none => rfl
  | some cres =>
  cases em with
  | none => rfl
  | some em =>
  cases pf with
  | none => rfl
  | some pf =>
  cases bl with
  | none => rfl
  | some bl =>
  cases bl with
  | func f => rfl
  | inst b =>
  cases ip with
  | none => rfl
  | some ip => rfl

theorem sampled_units (hu : u.Sensible) (hS : SamplerAlike u S S') (P : Par K) (dr : K) :
    sampled S' (u.par P) (u.a * dr) = (sampled S P dr).map u.three := by
  unfold sampled
  have e1 : max (u.par P).x0 (u.par P).a = u.a * max P.x0 P.a := (mul_max_of_nonneg _ _ hu.a.le).symm
  have e2 : min (u.par P).x1 (u.par P).b = u.a * min P.x1 P.b := (mul_min_of_nonneg _ _ hu.a.le).symm
  simp only [e1, e2, hS.arange]
  have e3 := hS.resample P.x P.y (S.arange (max P.x0 P.a) (min P.x1 P.b) dr)
  have e4 : S'.resample (u.par P).x (u.par P).y (u.xs (S.arange (max P.x0 P.a) (min P.x1 P.b) dr)) = _ := e3
  rw [e4]
  cases S.resample P.x P.y (S.arange (max P.x0 P.a) (min P.x1 P.b) dr) with
  | error e => rfl
  | ok y =>
    have e5 : (u.par P).eff = u.eff P.eff := rfl
    rw [e5]
    cases P.eff with
    | unset => rfl
    | scalar v => rfl
    | array l =>
      show Except.ok (_, _, _) = Except.ok (_, _, _)
      congr 3
      unfold Change.xs Change.ys
      rw [List.map_map, List.map_map]
      apply List.map_congr_left
      intro v _
      simp only [Function.comp]
      have e6 := hS.interp v P.x l
      have e7 := hS.errorscale P.q P.nyquist P.scale dr
      have e8 : S'.errorscale (u.par P).q (u.par P).nyquist (u.par P).scale (u.a * dr) * S'.interp (u.a * v) (u.par P).x (u.ys l) = _ := congrArg₂ (· * ·) e7 e6
      refine e8.trans ?_
      ring

theorem resampledata_units (hu : u.Sensible) (hD : DefaultsAlike u D D') (hS : SamplerAlike u S S') (s : PPX K) (hpf : s.base.pf.isSome = true) (dr : K) :
    resampledata S' D' (u.pvars s) (u.a * dr) = (resampledata S D s dr).map u.three := by
  unfold resampledata
  rw [hS.pi, pdefaultvars_units hu hD _ s hpf]
  obtain ⟨q, t⟩ := pdefaultvars S.pi D s
  cases q with
  | error e => rfl
  | ok v =>
    simp only
    rw [complete_units]
    cases complete t with
    | error e => rfl
    | ok P => exact sampled_units hu hS P dr

theorem rawGrid_units (P : Par K) (sl : ℕ × ℤ) (f : K) : rawGrid (u.par P) sl f = (rawGrid P sl f).map u.three := by
  unfold rawGrid
  have e5 : (u.par P).eff = u.eff P.eff := rfl
  simp only [e5]
  cases P.eff with
  | unset => rfl
  | scalar v => rfl
  | array l =>
    show Except.ok (getSlice (u.xs P.x) _, getSlice (u.ys P.y) _, (getSlice (u.ys l) _).map _) = Except.ok (_, _, _)
    rw [getSlice_xs, getSlice_ys, getSlice_ys]
    congr 3
    unfold Change.ys
    rw [List.map_map, List.map_map]
    apply List.map_congr_left
    intro v _
    simp only [Function.comp]
    ring

theorem drRaw_units (P : Par K) : drRaw (u.par P) = u.a * drRaw P := by
  unfold drRaw
  have : (u.par P).x.length = P.x.length := xs_length _
  rw [this]
  show (u.a * P.x1 - u.a * P.x0) / _ = _
  rw [← mul_sub, mul_div_assoc]

theorem drNyquist_units (hu : u.Sensible) (hS : SamplerAlike u S S') (P : Par K) : drNyquist S' (u.par P) = u.a * drNyquist S P := by
  unfold drNyquist
  have e : (u.par P).q = P.q / u.a := rfl
  rw [e, hS.pi, drRaw_units, over_q]
  simp only [pos_q hu]
  split <;> rfl

theorem firstGrid_units (hu : u.Sensible) (hD : DefaultsAlike u D D') (hS : SamplerAlike u S S') (s : PPX K) (hpf : s.base.pf.isSome = true) (P : Par K) :
    firstGrid S' D' (u.pvars s) (u.par P) = (firstGrid S D s P).map u.three := by
  unfold firstGrid
  have e1 : getrangeslice (u.par P).x (u.par P).a (u.par P).b = getrangeslice P.x P.a P.b := getrangeslice_xs hu.a _ _ _
  rw [e1]
  cases getrangeslice P.x P.a P.b with
  | error e => rfl
  | ok sl =>
    simp only
    have e2 : (u.par P).q = 0 ↔ P.q = 0 := zero_q hu P.q
    have e3 : (u.par P).x.length = P.x.length := xs_length _
    rw [e3, drNyquist_units hu hS, drRaw_units, mul_div_mul_left _ _ hu.a.ne']
    by_cases hq : P.q = 0
    · rw [if_pos hq, if_pos (e2.2 hq)]
      exact rawGrid_units P sl 1
    rw [if_neg hq, if_neg (fun h => hq (e2.1 h))]
    split
    · rfl
    have e4 : (u.par P).ss = P.ss := rfl
    rw [e4]
    split
    · rw [mul_div_assoc]
      exact resampledata_units hu hD hS s hpf _
    · have e7 : S'.errorscale (u.par P).q (u.par P).nyquist (u.par P).scale (u.a * drRaw P) = _ := hS.errorscale P.q P.nyquist P.scale (drRaw P)
      rw [e7]
      exact rawGrid_units P sl _

theorem fitGrid_units (hu : u.Sensible) (hD : DefaultsAlike u D D') (hS : SamplerAlike u S S') (s : PPX K) (hpf : s.base.pf.isSome = true) (P : Par K) :
    fitGrid S' D' (u.pvars s) (u.par P) = (fitGrid S D s P).map u.three := by
  unfold fitGrid
  have e1 : getrangeslice (u.par P).x (u.par P).a (u.par P).b = getrangeslice P.x P.a P.b := getrangeslice_xs hu.a _ _ _
  rw [e1]
  cases getrangeslice P.x P.a P.b with
  | error e => rfl
  | ok sl =>
    simp only
    have e2 : ((u.par P).q = 0 ∨ (u.par P).nyquist = false) ↔ (P.q = 0 ∨ P.nyquist = false) := or_congr (zero_q hu P.q) Iff.rfl
    by_cases hq : P.q = 0 ∨ P.nyquist = false
    · rw [if_pos hq, if_pos (e2.2 hq)]
      exact rawGrid_units P sl 1
    rw [if_neg hq, if_neg (fun h => hq (e2.1 h)), drNyquist_units hu hS]
    exact resampledata_units hu hD hS s hpf _

theorem innerVars_units (hu : u.Sensible) (hD : DefaultsAlike u D D') (P : Par K) (g : Grid K) :
    innerVars D' (u.par P) (u.three g) = (innerVars D P g).map u.vars := by
  obtain ⟨r, y, e⟩ := g
  unfold innerVars
  have e0 : (setdata {} (u.xs r) (u.ys y) none none : Res Unit × PX K) = both u (setdata {} r y none none) := by
    unfold setdata
    simp only [xs_length, ys_length, Option.getD]
    have z : (u.xs r).map (fun _ => (0 : K)) = u.xs (r.map (fun _ => 0)) := by
      unfold Change.xs
      rw [List.map_map, List.map_map]
      exact List.map_congr_left (fun v _ => (mul_zero u.a).symm)
    have z' : (u.xs r).map (fun _ => (0 : K)) = u.ys (r.map (fun _ => 0)) := by
      unfold Change.xs Change.ys
      rw [List.map_map, List.map_map]
      exact List.map_congr_left (fun v _ => (mul_zero u.k).symm)
    rw [z']
    simp only [ys_length, List.length_map]
    have w : u.ys (r.map (fun _ => 0)) = u.xs (r.map (fun _ => 0)) := z'.symm.trans z
    split
    · rfl
    split <;> simp only [both, Change.vars, Change.eff, Option.map_some, Option.map_none, w]
  have e1 : (setdata {} (u.three (r, y, e)).1 (u.three (r, y, e)).2.1 none none : Res Unit × PX K) = _ := e0
  rw [e1]
  cases setdata ({} : PX K) r y none none with
  | mk q t =>
    cases q with
    | error e => rfl
    | ok v =>
      simp only [both]
      have e1 : setvars D' (u.vars t) [.cres (some (u.par P).cres), .pf (some (u.par P).pf), .effective_dy (.array (u.three (r, y, e)).2.2),
          .baseline (some (.inst (u.par P).bl)), .error_method (some (u.par P).em), .initial_peaks (some (u.par P).ip)] =
          both u (setvars D t [.cres (some P.cres), .pf (some P.pf), .effective_dy (.array e),
            .baseline (some (.inst P.bl)), .error_method (some P.em), .initial_peaks (some P.ip)]) := by
        unfold setvars
        exact andThen_units (defaultvars_units hu hD) (Except.ok (), { t with cres := some P.cres, pf := some P.pf, effdy := .array e, baseline := some (.inst P.bl), errorMethod := some P.em, initialPeaks := some P.ip })
      rw [e1]
      generalize setvars (K := K) D t _ = R
      obtain ⟨q, t⟩ := R
      cases q <;> rfl

theorem wrap_units (hu : u.Sensible) (hS : SamplerAlike u S S') (q : K) (p : Part K) : wrap S' (q / u.a) (u.part p) = u.part (wrap S q p) := by
  unfold wrap
  rw [part_owner, hS.isRipple, hS.ripple]
  split
  · rfl
  · unfold Part.changeowner
    rw [part_owner, hu.id, hu.id, hu.npars, hu.npars]
    have e : (u.part p).staticOwner = p.staticOwner := rfl
    rw [e]
    split
    · rfl
    split
    · rfl
    · simp only [Change.part]
      have : u.pars (S.ripple q p.owner) = u.pars p.owner := by
        funext v
        unfold Change.pars
        rw [hS.units]
      rw [this]

theorem wrapped (hu : u.Sensible) (hS : SamplerAlike u S S') (q : K) (m : List (Part K)) :
    (u.parts m).map (wrap S' (q / u.a)) = u.parts (m.map (wrap S q)) := by
  unfold Change.parts
  rw [List.map_map, List.map_map]
  exact List.map_congr_left (fun p _ => wrap_units hu hS q p)

theorem freePars_units (hu : u.Sensible) (c : Cluster K) : freePars (u.cluster c) = freePars c := by
  unfold freePars
  have e1 : npars (u.cluster c).model false = npars c.model false := npars_parts hu _ _
  have e2 : (u.cluster c).baseline = c.baseline.map u.part := rfl
  rw [e1, e2]
  cases c.baseline with
  | none => rfl
  | some b => exact congrArg (npars c.model false + ·) (part_npars hu b false)

theorem jobFor_units (H : Heap K) (P : Par K) (g : Grid K) : jobFor (u.heap H) (u.par P) (u.three g) = u.job (jobFor H P g) := rfl

theorem pass_units (hu : u.Sensible) (h : Alike u W W') (hD : DefaultsAlike u D D') (hS : SamplerAlike u S S') (H : Heap K) (s : PPX K)
    (hpf : s.base.pf.isSome = true) (P : Par K) (bl : Option (Part K)) (dr : K) (c : Cluster K) :
    pass W' (u.heap H) S' D' (u.pvars s) (u.par P) (bl.map u.part) (u.a * dr) (u.cluster c) = (pass W H S D s P bl dr c).map u.cluster := by
  unfold pass
  refine map_bind (resampledata_units hu hD hS s hpf dr) ?_
  intro g
  rw [jobFor_units]
  refine map_bind (newCluster_units hu h (jobFor H P g) c.model bl g.1 g.2.1 g.2.2 none) ?_
  intro c
  refine map_bind (fitted_units hu h {} c) ?_
  intro c
  exact pruned_units hu h (jobFor H P g) c

theorem interval_units (hu : u.Sensible) (w n : K) (t : ℕ) : interval (u.a * w) (u.a * n) t = u.a * interval w n t := by
  unfold interval
  rw [mul_div_mul_left _ _ hu.a.ne']
  split
  · ring
  · rfl

theorem nyquistPasses_units (hu : u.Sensible) (h : Alike u W W') (hD : DefaultsAlike u D D') (hS : SamplerAlike u S S') (H : Heap K) (s : PPX K)
    (hpf : s.base.pf.isSome = true) (P : Par K) (bl : Option (Part K)) (w : K) : ∀ (n : ℕ) (c : Cluster K),
    nyquistPasses W' (u.heap H) S' D' (u.pvars s) (u.par P) (bl.map u.part) (u.a * w) n (u.cluster c) =
      (nyquistPasses W H S D s P bl w n c).map (fun r => r.map u.cluster)
  | 0, _ => rfl
  | n + 1, c => by
    unfold nyquistPasses
    rw [freePars_units hu, drNyquist_units hu hS, interval_units hu, pass_units hu h hD hS H s hpf]
    cases pass W H S D s P bl (interval w (drNyquist S P) (freePars c)) c with
    | error e => rfl
    | ok c' =>
      simp only [Except.map]
      have e1 : u.a * interval w (drNyquist S P) (freePars c) = u.a * drNyquist S P ↔ interval w (drNyquist S P) (freePars c) = drNyquist S P :=
        mul_right_inj' hu.a.ne'
      rw [freePars_units hu]
      by_cases h1 : interval w (drNyquist S P) (freePars c) = drNyquist S P
      · rw [if_pos h1, if_pos (e1.2 h1)]
        rfl
      rw [if_neg h1, if_neg (fun e => h1 (e1.1 e))]
      split
      · rfl
      · exact nyquistPasses_units hu h hD hS H s hpf P bl w n c'

theorem widthOf_units (g : Grid K) : widthOf (u.three g) = (widthOf g).map (fun w => u.a * w) := by
  unfold widthOf
  have e1 : (u.three g).1.head? = g.1.head?.map (fun v => u.a * v) := by simp [Change.three, Change.xs]
  have e2 : (u.three g).1.getLast? = g.1.getLast?.map (fun v => u.a * v) := by simp [Change.three, Change.xs]
  rw [e1, e2]
  cases g.1.head? with
  | none => rfl
  | some p =>
    cases g.1.getLast? with
    | none => rfl
    | some q => simp [Except.map, mul_sub]

theorem plain_units (hu : u.Sensible) (h : Alike u W W') (hS : SamplerAlike u S S') (H : Heap K) (P : Par K) (g : Grid K) (c : Cluster K) :
    plain W' (u.heap H) S' (u.par P) (u.three g) (u.cluster c) = (plain W H S P g c).map u.cluster := by
  unfold plain
  have e : (u.cluster c).model.map (wrap S' (u.par P).q) = u.parts (c.model.map (wrap S P.q)) := wrapped hu hS P.q c.model
  rw [jobFor_units, e]
  refine map_bind (newCluster_units hu h (jobFor H P g) (c.model.map (wrap S P.q)) c.baseline g.1 g.2.1 g.2.2 none) ?_
  intro c
  exact pruned_units hu h (jobFor H P g) c

theorem refine_units (hu : u.Sensible) (h : Alike u W W') (hD : DefaultsAlike u D D') (hS : SamplerAlike u S S') (H : Heap K) (s : PPX K)
    (hpf : s.base.pf.isSome = true) (P : Par K) (n : ℕ) (g : Grid K) (c : Cluster K) :
    refine W' (u.heap H) S' D' (u.pvars s) (u.par P) n (u.three g) (u.cluster c) = (refine W H S D s P n g c).map (fun r => r.map u.cluster) := by
  unfold refine
  have e1 : 0 < (u.par P).q ↔ 0 < P.q := pos_q hu P.q
  by_cases hq : 0 < P.q
  · rw [if_pos hq, if_pos (e1.2 hq)]
    have e2 : (u.par P).nyquist = P.nyquist := rfl
    rw [e2]
    split
    · rw [widthOf_units]
      cases widthOf g with
      | error e => rfl
      | ok w =>
        simp only [Except.map]
        have e : (u.cluster c).model.map (wrap S' (u.par P).q) = u.parts (c.model.map (wrap S P.q)) := wrapped hu hS P.q c.model
        rw [e]
        exact nyquistPasses_units hu h hD hS H s hpf P c.baseline w n { c with model := c.model.map (wrap S P.q) }
    · rw [plain_units hu h hS]
      rfl
  · rw [if_neg hq, if_neg (fun e => hq (e1.1 e))]
    rfl

theorem begun_units (hu : u.Sensible) (h : Alike u W W') (hD : DefaultsAlike u D D') (hS : SamplerAlike u S S') (H : Heap K) (s : PPX K)
    (hpf : s.base.pf.isSome = true) :
    begun W' (u.heap H) S' D' (u.pvars s) = (begun W H S D s).map (fun r => (u.par r.1, u.three r.2.1, u.cluster r.2.2)) := by
  unfold begun
  refine map_bind (complete_units s) ?_
  intro P
  refine map_bind (firstGrid_units hu hD hS s hpf P) ?_
  intro g
  refine map_bind (innerVars_units hu hD P g) ?_
  intro t
  refine map_bind (extractSingle_units hu h hD H 3 1 t) ?_
  intro c
  rfl

theorem finished_units (hu : u.Sensible) (h : Alike u W W') (r : Res (Cluster K)) : finished W' (r.map u.cluster) = (finished W r).map u.cluster := by
  cases r with
  | error e => rfl
  | ok c => exact fitted_units hu (final_alike h) _ c

theorem extracted_units (hu : u.Sensible) (h : Alike u W W') (hD : DefaultsAlike u D D') (hS : SamplerAlike u S S') (H : Heap K) (s : PPX K)
    (hpf : s.base.pf.isSome = true) (n : ℕ) :
    extracted W' (u.heap H) S' D' (u.pvars s) n = (extracted W H S D s n).map (fun r => r.map u.cluster) := by
  unfold extracted
  rw [begun_units hu h hD hS H s hpf]
  cases begun W H S D s with
  | error e => rfl
  | ok r =>
    obtain ⟨P, g, c⟩ := r
    simp only [Except.map]
    rw [refine_units hu h hD hS H s hpf]
    cases refine W H S D s P n g c with
    | none => rfl
    | some r => exact congrArg some (finished_units hu h r)

end Verif.Parts.Units
