import Verif.Units.Search

/-! # Lemmas for C104: extraction variables, and the whole of `extract_single` -/

set_option linter.unusedSectionVars false

namespace Verif.Parts.Units

open Verif.Py Verif.PeakList Verif.Parts.ModelCluster Verif.Parts.Extract Verif.Extraction

variable {K : Type} [Field K] [LinearOrder K] [IsStrictOrderedRing K]

variable {u : Change K} {W W' : World K} {D D' : Defaults K}

theorem lowLoop_xs (ha : 0 < u.a) (t : K) : ∀ (l : List K) (i : ℕ), lowLoop (u.a * t) (u.xs l) i = lowLoop t l i
  | [], i => rfl
  | b :: l, i => by
    show (if u.a * b < u.a * t then lowLoop (u.a * t) (u.xs l) (i + 1) else .ok i) = (if b < t then lowLoop t l (i + 1) else .ok i)
    rw [lowLoop_xs ha t l (i + 1)]
    simp only [mul_lt_mul_iff_right₀ ha]

theorem hiLoop_xs (ha : 0 < u.a) (t : K) : ∀ (l : List K) (i : ℤ), hiLoop (u.a * t) (u.xs l) i = hiLoop t l i
  | [], i => rfl
  | b :: l, i => by
    show (if u.a * t < u.a * b then hiLoop (u.a * t) (u.xs l) (i - 1) else .ok i) = (if t < b then hiLoop t l (i - 1) else .ok i)
    rw [hiLoop_xs ha t l (i - 1)]
    simp only [mul_lt_mul_iff_right₀ ha]

theorem getrangeslice_xs (ha : 0 < u.a) (x : List K) (a b : K) :
    getrangeslice (u.xs x) (u.a * a) (u.a * b) = getrangeslice x a b := by
  unfold getrangeslice
  have e1 : (u.xs x).head? = x.head?.map (fun v => u.a * v) := by cases x <;> rfl
  have e2 : (u.xs x).getLast? = x.getLast?.map (fun v => u.a * v) := by simp [Change.xs]
  have e3 : (u.xs x).reverse ++ (u.xs x).reverse = u.xs (x.reverse ++ x.reverse) := by simp [Change.xs]
  rw [e1, e2, e3, xs_length]
  cases x.head? with
  | none => rfl
  | some p =>
    cases x.getLast? with
    | none => rfl
    | some q =>
      simp only [Option.map_some]
      rw [← mul_max_of_nonneg _ _ ha.le, ← mul_min_of_nonneg _ _ ha.le, lowLoop_xs ha, hiLoop_xs ha]

/-- A result and the variables, in the new units. -/
def both (u : Change K) (r : Res Unit × PX K) : Res Unit × PX K := (r.1, u.vars r.2)

theorem ends_units (s : PX K) : ends (u.vars s) = (ends s).map (fun r => (u.a * r.1, u.a * r.2)) := by
  unfold ends
  have e : (u.vars s).x = s.x.map u.xs := rfl
  rw [e]
  cases s.x with
  | none => rfl
  | some x =>
    have e1 : (u.xs x).head? = x.head?.map (fun v => u.a * v) := by cases x <;> rfl
    have e2 : (u.xs x).getLast? = x.getLast?.map (fun v => u.a * v) := by simp [Change.xs]
    simp only [Option.map_some]
    rw [e1, e2]
    cases x.head? with
    | none => rfl
    | some p => cases x.getLast? <;> rfl

theorem defCres_units (s : PX K) : defCres (u.vars s) = both u (defCres s) := by
  unfold defCres
  rw [ends_units]
  have e : (u.vars s).x = s.x.map u.xs := rfl
  have e' : (u.vars s).cres = s.cres.map (fun v => u.a * v) := rfl
  rw [e, e']
  cases s.cres with
  | some c => rfl
  | none =>
    cases hx : ends s with
    | error e => cases s.x <;> rfl
    | ok r =>
      cases s.x with
      | none => rfl
      | some x =>
        simp only [Option.map_some, Option.map_none, Except.map, both, xs_length]
        have : 4 * (u.a * r.2 - u.a * r.1) / (x.length : K) = u.a * (4 * (r.2 - r.1) / x.length) := by ring
        rw [this]
        rfl

theorem foldl_max_ys (hk : 0 < u.k) : ∀ (l : List K) (a : K), (u.ys l).foldl max (u.k * a) = u.k * l.foldl max a
  | [], a => rfl
  | b :: l, a => by
    show (u.ys l).foldl max (max (u.k * a) (u.k * b)) = u.k * l.foldl max (max a b)
    rw [← mul_max_of_nonneg _ _ hk.le, foldl_max_ys hk l]

theorem foldl_min_ys (hk : 0 < u.k) : ∀ (l : List K) (a : K), (u.ys l).foldl min (u.k * a) = u.k * l.foldl min a
  | [], a => rfl
  | b :: l, a => by
    show (u.ys l).foldl min (min (u.k * a) (u.k * b)) = u.k * l.foldl min (min a b)
    rw [← mul_min_of_nonneg _ _ hk.le, foldl_min_ys hk l]

theorem spread_ys (hk : 0 < u.k) (l : List K) : spread (u.ys l) = (spread l).map (fun v => u.k * v) := by
  cases l with
  | nil => rfl
  | cons a l =>
    show Except.ok ((u.ys l).foldl max (u.k * a) - (u.ys l).foldl min (u.k * a)) = Except.ok (u.k * (l.foldl max a - l.foldl min a))
    rw [foldl_max_ys hk, foldl_min_ys hk, mul_sub]

theorem all_pos_ys (hk : 0 < u.k) (l : List K) : (u.ys l).all (fun v => decide (0 < v)) = l.all (fun v => decide (0 < v)) := by
  unfold Change.ys
  rw [List.all_map]
  congr 1
  funext v
  simp [hk]

theorem const_ys (x : List K) (v : K) : (u.xs x).map (fun _ => u.k * v) = u.ys (x.map (fun _ => v)) := by
  unfold Change.xs Change.ys
  rw [List.map_map, List.map_map]
  rfl

theorem defEffdy_units (hk : 0 < u.k) (s : PX K) : defEffdy (u.vars s) = both u (defEffdy s) := by
  obtain ⟨x, y, dx, dy, eff, rng, pf, ip, bl, cres, em⟩ := s
  cases eff with
  | array l => rfl
  | scalar v =>
    have hv : 0 < u.k * v ↔ 0 < v := mul_pos_iff_of_pos_left hk
    cases x with
    | none =>
      show (if 0 < u.k * v then _ else _) = both u (if 0 < v then _ else _)
      simp only [hv]
      split <;> rfl
    | some x =>
      show (if 0 < u.k * v then (_, _) else _) = both u (if 0 < v then (_, _) else _)
      simp only [hv]
      split
      · show (_, { u.vars ⟨some x, y, dx, dy, .scalar v, rng, pf, ip, bl, cres, em⟩ with effdy := EffDy.array ((u.xs x).map (fun _ => u.k * v)) }) = _
        rw [const_ys]
        rfl
      · rfl
  | unset =>
    cases x with
    | none => rfl
    | some x =>
      cases y with
      | none => rfl
      | some y =>
        cases dy with
        | none => rfl
        | some dy =>
          show (if (u.ys dy).all (fun v => decide (0 < v)) then _ else match spread (u.ys y) with
            | .error e => _ | .ok w => _) = both u (if dy.all (fun v => decide (0 < v)) then _ else match spread y with
            | .error e => _ | .ok w => _)
          rw [all_pos_ys hk, spread_ys hk]
          split
          · rfl
          · cases spread y with
            | error e => rfl
            | ok w =>
              show (_, { u.vars ⟨some x, some y, dx, some dy, .unset, rng, pf, ip, bl, cres, em⟩ with
                effdy := EffDy.array ((u.xs x).map (fun _ => 5 / 100 * (u.k * w))) }) = _
              have : 5 / 100 * (u.k * w) = u.k * (5 / 100 * w) := by ring
              rw [this, const_ys]
              rfl

theorem defPf_units (ha : 0 < u.a) (hD : DefaultsAlike u D D') (s : PX K) : defPf D' (u.vars s) = both u (defPf D s) := by
  unfold defPf
  rw [ends_units]
  have e : (u.vars s).pf = s.pf := rfl
  rw [e]
  cases s.pf with
  | some p => rfl
  | none =>
    cases ends s with
    | error e => rfl
    | ok r =>
      have e1 : u.a * r.2 - u.a * r.1 = u.a * (r.2 - r.1) := by ring
      have e2 : u.a * (r.2 - r.1) ≤ 0 ↔ r.2 - r.1 ≤ 0 := by
        constructor
        · intro h; by_contra hn; exact absurd h (not_le.2 (mul_pos ha (not_le.1 hn)))
        · intro h; exact mul_nonpos_of_nonneg_of_nonpos ha.le h
      simp only [Except.map]
      rw [e1]
      simp only [e2, hD.gaussianOverR]
      split <;> rfl

theorem defRng_units (s : PX K) : defRng (u.vars s) = both u (defRng s) := by
  unfold defRng
  rw [ends_units]
  obtain ⟨x, y, dx, dy, eff, rng, pf, ip, bl, cres, em⟩ := s
  cases rng with
  | none =>
    cases ends (⟨x, y, dx, dy, eff, none, pf, ip, bl, cres, em⟩ : PX K) <;> rfl
  | some r =>
    obtain ⟨p, q⟩ := r
    cases p with
    | none => cases ends (⟨x, y, dx, dy, eff, some (none, q), pf, ip, bl, cres, em⟩ : PX K) <;> cases q <;> rfl
    | some p =>
      cases q with
      | some q => rfl
      | none => cases ends (⟨x, y, dx, dy, eff, some (some p, none), pf, ip, bl, cres, em⟩ : PX K) <;> rfl

theorem selected_units (ha : 0 < u.a) (s : PX K) : selected (u.vars s) = (selected s).map (fun r => (u.xs r.1, u.ys r.2)) := by
  obtain ⟨x, y, dx, dy, eff, rng, pf, ip, bl, cres, em⟩ := s
  cases x with
  | none => rfl
  | some x =>
    cases y with
    | none => rfl
    | some y =>
      cases rng with
      | none => rfl
      | some r =>
        obtain ⟨p, q⟩ := r
        cases p with
        | none => rfl
        | some p =>
          cases q with
          | none => rfl
          | some q =>
            show (match getrangeslice (u.xs x) (u.a * p) (u.a * q) with
              | .error e => _ | .ok (lo, hi) => _) = _
            rw [getrangeslice_xs ha]
            show _ = Except.map _ (match getrangeslice x p q with
              | .error e => _ | .ok (lo, hi) => _)
            cases getrangeslice x p q with
            | error e => rfl
            | ok r =>
              obtain ⟨lo, hi⟩ := r
              show Except.ok (getSlice (u.xs x) _, getSlice (u.ys y) _) = _
              rw [getSlice_xs, getSlice_ys]
              rfl

theorem defBaseline_units (ha : 0 < u.a) (hD : DefaultsAlike u D D') (s : PX K) : defBaseline D' (u.vars s) = both u (defBaseline D s) := by
  unfold defBaseline
  rw [selected_units ha]
  have e : (u.vars s).baseline = s.baseline := rfl
  rw [e]
  cases s.baseline with
  | none => rw [hD.zeroBaseline]; rfl
  | some b =>
    cases b with
    | inst i => rfl
    | func f =>
      simp only
      cases selected s with
      | error e => rfl
      | ok r =>
        simp only [Except.map]
        rw [hD.estimate, hD.zeroBaseline]
        cases D.estimate f r.1 r.2 with
        | ok b => rfl
        | error e => cases e <;> rfl

theorem defRest_units (hD : DefaultsAlike u D D') (s : PX K) : defRest D' (u.vars s) = u.vars (defRest D s) := by
  unfold defRest
  rw [hD.aic, hD.noPeaks]
  rfl

theorem andThen_units {f f' : PX K → Res Unit × PX K} (hf : ∀ s, f' (u.vars s) = both u (f s)) (r : Res Unit × PX K) :
    andThen (both u r) f' = both u (andThen r f) := by
  obtain ⟨q, s⟩ := r
  cases q with
  | error e => rfl
  | ok v => exact hf s

theorem defaultvars_units (hu : u.Sensible) (hD : DefaultsAlike u D D') (s : PX K) : defaultvars D' (u.vars s) = both u (defaultvars D s) := by
  unfold defaultvars
  rw [defCres_units, andThen_units (defEffdy_units hu.k), andThen_units (defPf_units hu.a hD), andThen_units defRng_units,
    andThen_units (defBaseline_units hu.a hD), andThen_units]
  intro s
  show (_, _) = both u (_, _)
  rw [defRest_units hD]
  rfl

theorem jobOf_units (hu : u.Sensible) (H : Heap K) (s : PX K) : jobOf (u.heap H) (u.vars s) = (jobOf H s).map u.job := by
  obtain ⟨x, y, dx, dy, eff, rng, pf, ip, bl, cres, em⟩ := s
  cases x with
  | none => rfl
  | some x =>
  cases y with
  | none => rfl
  | some y =>
  cases eff with
  | unset => rfl
  | scalar v => rfl
  | array l =>
  cases rng with
  | none => rfl
  | some r =>
  obtain ⟨p, q⟩ := r
  cases p with
  | none => rfl
  | some p =>
  cases q with
  | none => rfl
  | some q =>
  cases bl with
  | none => rfl
  | some b =>
  cases b with
  | func f => rfl
  | inst b =>
  cases ip with
  | none => rfl
  | some ip =>
  cases cres with
  | none => rfl
  | some cres =>
  cases em with
  | none => rfl
  | some em =>
  cases pf with
  | none => rfl
  | some pf =>
    show (match getrangeslice (u.xs x) (u.a * p) (u.a * q) with
      | .error e => _ | .ok (lo, hi) => _) = _
    rw [getrangeslice_xs hu.a]
    show _ = Except.map _ (match getrangeslice x p q with
      | .error e => _ | .ok (lo, hi) => _)
    cases getrangeslice x p q with
    | error e => rfl
    | ok r =>
      obtain ⟨lo, hi⟩ := r
      show (Except.ok (⟨getSlice (u.xs x) _, getSlice (u.ys y) _, getSlice (u.ys l) _, _, _, _, _, _⟩ : Job K) : Res (Job K)) = _
      rw [getSlice_xs, getSlice_ys, getSlice_ys]
      rfl

theorem subSearch_units (hu : u.Sensible) (hD : DefaultsAlike u D D') (s : PX K) (r y e : List K) :
    subSearch D' (u.vars s) (u.xs r) (u.ys y) (u.ys e) = (subSearch D s r y e).map u.vars := by
  unfold subSearch
  have e0 : (setdata {} (u.xs r) (u.ys y) none (some (u.ys e)) : Res Unit × PX K) = both u (setdata {} r y none (some e)) := by
    unfold setdata
    simp only [xs_length, ys_length, Option.getD]
    have z : (u.xs r).map (fun _ => (0 : K)) = u.xs (r.map (fun _ => 0)) := by
      unfold Change.xs
      rw [List.map_map, List.map_map]
      exact List.map_congr_left (fun v _ => (mul_zero u.a).symm)
    rw [z]
    simp only [xs_length, List.length_map]
    split
    · rfl
    split <;> rfl
  rw [e0]
  cases setdata ({} : PX K) r y none (some e) with
  | mk q t =>
    cases q with
    | error e => rfl
    | ok v =>
      simp only [both]
      have e1 : setvars D' (u.vars t) [.baseline (u.vars s).baseline, .cres (u.vars s).cres, .pf (u.vars s).pf, .error_method (u.vars s).errorMethod] =
          both u (setvars D t [.baseline s.baseline, .cres s.cres, .pf s.pf, .error_method s.errorMethod]) := by
        unfold setvars
        exact andThen_units (defaultvars_units hu hD) (Except.ok (), { t with baseline := s.baseline, cres := s.cres, pf := s.pf, errorMethod := s.errorMethod })
      rw [e1]
      cases setvars D t [.baseline s.baseline, .cres s.cres, .pf s.pf, .error_method s.errorMethod] with
      | mk q t => cases q <;> rfl

theorem extractSingle_units (hu : u.Sensible) (h : Alike u W W') (hD : DefaultsAlike u D D') (H : Heap K) : ∀ (n depth : ℕ) (s : PX K),
    extractSingle W' (u.heap H) D' n depth (u.vars s) = (extractSingle W H D n depth s).map u.cluster
  | 0, depth, s => rfl
  | n + 1, depth, s => by
    unfold extractSingle
    rw [defaultvars_units hu hD]
    cases defaultvars D s with
    | mk q s =>
      cases q with
      | error e => rfl
      | ok v =>
        simp only [both]
        rw [jobOf_units hu]
        cases jobOf H s with
        | error e => rfl
        | ok J =>
          simp only [Except.map]
          refine search_units hu h J ?_ _
          split
          · intro r y e
            simp only
            rw [subSearch_units hu hD]
            cases subSearch D s r y e with
            | error e => rfl
            | ok t => exact extractSingle_units hu h hD H n (depth + 1) t
          · trivial

end Verif.Parts.Units
