import Verif.Extract.Search

/-!
# C68–C71: what `extract_single` returns
-/

set_option linter.unusedSectionVars false

namespace Verif.Parts.Extract

open Verif.Py Verif.PeakList Verif.Parts.ModelCluster Verif.Extraction

variable {K : Type} [Field K] [LinearOrder K] [IsStrictOrderedRing K]

/-! ### What `defaultvars` leaves alone -/

/-- The range of coordinates to be used: what the user gave, else the ends of the data. -/
def rangeOf (s : PX K) (x0 x1 : K) : K × K := ((s.rng.bind Prod.fst).getD x0, (s.rng.bind Prod.snd).getD x1)

/-- What is known of the variables after `defaultvars`. -/
structure Defaulted (D : Defaults K) (s t : PX K) : Prop where
  x : t.x = s.x
  y : t.y = s.y
  dy : t.dy = s.dy
  pf : ∀ f, s.pf = some f → t.pf = some f
  cres : ∀ v, s.cres = some v → t.cres = some v
  em : t.errorMethod = some (s.errorMethod.getD D.aic)
  ip : t.initialPeaks = some (s.initialPeaks.getD D.noPeaks)
  bl : ∀ b, s.baseline = some (.inst b) → t.baseline = some (.inst b)
  rng : ∀ x x0 x1, s.x = some x → x.head? = some x0 → x.getLast? = some x1 →
    t.rng = some (some (rangeOf s x0 x1).1, some (rangeOf s x0 x1).2)
  eff : ∀ x y dy, s.x = some x → s.y = some y → s.dy = some dy → dy.length = x.length →
    (∀ e, s.effdy = .array e → e.length = x.length) → ∀ e, t.effdy = .array e → e.length = x.length

theorem andThen_ok {r : Res Unit × PX K} {f : PX K → Res Unit × PX K} {t : PX K}
    (h : andThen r f = (.ok (), t)) : ∃ u, r = (.ok (), u) ∧ f u = (.ok (), t) := by
  unfold andThen at h
  split at h
  · simp at h
  · exact ⟨_, rfl, h⟩

theorem defCres_frame {s t : PX K} (h : defCres s = (.ok (), t)) :
    ∃ v, t = { s with cres := some v } ∧ ∀ w, s.cres = some w → w = v := by
  unfold defCres at h
  cases hc : s.cres with
  | some v =>
    rw [hc] at h
    simp only [Prod.mk.injEq, true_and] at h
    exact ⟨v, by rw [← h, ← hc], by intro w hw; simp at hw; exact hw.symm⟩
  | none =>
    rw [hc] at h
    simp only at h
    split at h
    · simp only [Prod.mk.injEq, true_and] at h
      exact ⟨_, h.symm, by intro w hw; simp at hw⟩
    · simp at h
    · simp at h

theorem defEffdy_frame {s t : PX K} (h : defEffdy s = (.ok (), t)) :
    ∃ e, t = { s with effdy := e } ∧ ∀ x y dy, s.x = some x → s.y = some y → s.dy = some dy →
      dy.length = x.length → (∀ e, s.effdy = .array e → e.length = x.length) →
      ∀ l, e = .array l → l.length = x.length := by
  unfold defEffdy at h
  split at h
  · rename_i x y dy he hx hy hdy
    split at h
    · simp only [Prod.mk.injEq, true_and] at h
      refine ⟨_, h.symm, ?_⟩
      intro x' y' dy' hx' hy' hdy' hl _ l hle
      rw [hdy] at hdy'
      simp only [Option.some.injEq] at hdy'
      simp only [EffDy.array.injEq] at hle
      rw [← hle, hdy', hl]
    · split at h
      · simp at h
      · simp only [Prod.mk.injEq, true_and] at h
        refine ⟨_, h.symm, ?_⟩
        intro x' y' dy' hx' hy' hdy' hl _ l hle
        rw [hx] at hx'
        simp only [Option.some.injEq] at hx'
        simp only [EffDy.array.injEq] at hle
        rw [← hle, hx', List.length_map]
  · simp at h
  · rename_i v x he hx
    split at h
    · simp only [Prod.mk.injEq, true_and] at h
      refine ⟨_, h.symm, ?_⟩
      intro x' y' dy' hx' hy' hdy' hl _ l hle
      rw [hx] at hx'
      simp only [Option.some.injEq] at hx'
      simp only [EffDy.array.injEq] at hle
      rw [← hle, hx', List.length_map]
    · simp only [Prod.mk.injEq, true_and] at h
      exact ⟨s.effdy, by rw [← h], fun x' y' dy' _ _ _ _ hl l hle => hl l hle⟩
  · split at h
    · simp at h
    · simp only [Prod.mk.injEq, true_and] at h
      exact ⟨s.effdy, by rw [← h], fun x' y' dy' _ _ _ _ hl l hle => hl l hle⟩
  · simp only [Prod.mk.injEq, true_and] at h
    exact ⟨s.effdy, by rw [← h], fun x' y' dy' _ _ _ _ hl l hle => hl l hle⟩

theorem defPf_frame {D : Defaults K} {s t : PX K} (h : defPf D s = (.ok (), t)) :
    ∃ f, t = { s with pf := some f } ∧ ∀ w, s.pf = some w → w = f := by
  unfold defPf at h
  cases hc : s.pf with
  | some v =>
    rw [hc] at h
    simp only [Prod.mk.injEq, true_and] at h
    exact ⟨v, by rw [← h, ← hc], by intro w hw; simp at hw; exact hw.symm⟩
  | none =>
    rw [hc] at h
    simp only at h
    split at h
    · simp at h
    · split at h
      · simp at h
      · simp only [Prod.mk.injEq, true_and] at h
        exact ⟨_, h.symm, by intro w hw; simp at hw⟩

theorem defRng_frame {s t : PX K} (h : defRng s = (.ok (), t)) :
    ∃ g, t = { s with rng := g } ∧ ∀ x x0 x1, s.x = some x → x.head? = some x0 → x.getLast? = some x1 →
      g = some (some (rangeOf s x0 x1).1, some (rangeOf s x0 x1).2) := by
  unfold defRng at h
  split at h
  · rename_i a b hr
    simp only [Prod.mk.injEq, true_and] at h
    refine ⟨s.rng, by rw [← h], ?_⟩
    intro x x0 x1 _ _ _
    unfold rangeOf
    rw [hr]; rfl
  · split at h
    · simp at h
    · rename_i a b hends
      simp only [Prod.mk.injEq, true_and] at h
      refine ⟨_, h.symm, ?_⟩
      intro x x0 x1 hx h0 h1
      unfold ends at hends
      rw [hx] at hends
      simp only [h0, h1, Except.ok.injEq, Prod.mk.injEq] at hends
      unfold rangeOf
      rw [hends.1, hends.2]

theorem defBaseline_frame {D : Defaults K} {s t : PX K} (h : defBaseline D s = (.ok (), t)) :
    ∃ b, t = { s with baseline := some (.inst b) } ∧ ∀ w, s.baseline = some (.inst w) → w = b := by
  unfold defBaseline at h
  split at h
  · rename_i b hb
    simp only [Prod.mk.injEq, true_and] at h
    exact ⟨b, by rw [← h, ← hb], by intro w hw; rw [hb] at hw; simp at hw; exact hw.symm⟩
  · rename_i hb
    simp only [Prod.mk.injEq, true_and] at h
    exact ⟨_, h.symm, by intro w hw; rw [hb] at hw; simp at hw⟩
  · rename_i f hb
    have hw : ∀ b w, s.baseline = some (Base.inst w) → w = b := by
      intro b w hw; rw [hb] at hw; simp at hw
    split at h
    · simp at h
    · split at h
      · simp only [Prod.mk.injEq, true_and] at h
        exact ⟨_, h.symm, hw _⟩
      · simp only [Prod.mk.injEq, true_and] at h
        exact ⟨_, h.symm, hw _⟩
      · simp only [Prod.mk.injEq, true_and] at h
        exact ⟨_, h.symm, hw _⟩
      · simp at h

theorem defaulted {D : Defaults K} {s t : PX K} (h : defaultvars D s = (.ok (), t)) : Defaulted D s t := by
  unfold defaultvars at h
  obtain ⟨s5, h, h6⟩ := andThen_ok h
  obtain ⟨s4, h, h5⟩ := andThen_ok h
  obtain ⟨s3, h, h4⟩ := andThen_ok h
  obtain ⟨s2, h, h3⟩ := andThen_ok h
  obtain ⟨s1, h1, h2⟩ := andThen_ok h
  obtain ⟨v1, rfl, k1⟩ := defCres_frame h1
  obtain ⟨v2, rfl, k2⟩ := defEffdy_frame h2
  obtain ⟨v3, rfl, k3⟩ := defPf_frame h3
  obtain ⟨v4, rfl, k4⟩ := defRng_frame h4
  obtain ⟨v5, rfl, k5⟩ := defBaseline_frame h5
  simp only [Prod.mk.injEq, true_and] at h6
  subst h6
  refine ⟨rfl, rfl, rfl, ?_, ?_, rfl, rfl, ?_, ?_, ?_⟩
  · intro f hf; rw [k3 f hf]; rfl
  · intro f hf; rw [k1 f hf]; rfl
  · intro b hb; rw [k5 b hb]; rfl
  · intro x x0 x1 a b c; exact k4 x x0 x1 a b c
  · intro x y dy a b c d e l hl; exact k2 x y dy a b c d e l hl

/-! ### The recursion -/

/-- Data with increasing coordinates, as many values and uncertainties as coordinates. -/
structure Ready (s : PX K) (x y : List K) : Prop where
  hasx : s.x = some x
  hasy : s.y = some y
  hasdy : ∃ dy, s.dy = some dy ∧ dy.length = x.length
  heff : ∀ e, s.effdy = .array e → e.length = x.length
  inc : x.Pairwise (· < ·)
  leny : y.length = x.length

/-- A peak of one of the functions `fs` (`F` says which functions they are), removable, of which all parameters are free and the function may
be changed; it has the values that the function needs. -/
def New (F : ℕ → Owner K) (fs : List ℕ) (p : Part K) : Prop :=
  (∃ f ∈ fs, p.owner = F f) ∧ p.removable = true ∧ p.staticOwner = false ∧ p.free = List.replicate p.owner.npars true ∧ Shaped p

/-- The peaks that `estimatepeak` makes: of one of the peak functions of the cluster, with the default flags. -/
def Estimates (W : World K) : Prop :=
  ∀ c p, (W.env c).estimate = .ok (some p) → New W.func c.funcs p

/-- `New`, of the key. -/
def Supplied (F : ℕ → Owner K) (fs : List ℕ) (k : Key K) : Prop :=
  (∃ f ∈ fs, k.1 = F f) ∧ k.2.2.1 = true ∧ k.2.2.2.1 = false ∧ k.2.1 = List.replicate k.1.npars true ∧ k.2.2.2.2.1

theorem supplied_iff (F : ℕ → Owner K) (fs : List ℕ) (p : Part K) : Supplied F fs (key p) ↔ New F fs p := Iff.rfl

theorem New.mono {F : ℕ → Owner K} {fs gs : List ℕ} (h : ∀ f ∈ fs, f ∈ gs) {p : Part K} (hp : New F fs p) : New F gs p := by
  obtain ⟨⟨f, hf, e⟩, h2⟩ := hp
  exact ⟨⟨f, h f hf, e⟩, h2⟩

theorem supplies {W : World K} (hE : Estimates W) (J : Job K) : Supplies W J (Supplied W.func J.funcs) := by
  intro c p hf hp
  exact (hE c p hp).mono hf

theorem subSearch_ready {D : Defaults K} {s t : PX K} {r y e : List K} (hd : Data r y e)
    (h : subSearch D s r y e = .ok t) : Ready t r y ∧ (∀ f, s.pf = some f → t.pf = some f) ∧
      t.initialPeaks = some D.noPeaks ∧ (∀ b, s.baseline = some (.inst b) → t.baseline = some (.inst b)) ∧
      (∀ v, s.cres = some v → t.cres = some v) ∧ (∀ v, s.errorMethod = some v → t.errorMethod = some v) := by
  unfold subSearch at h
  have hset : setdata ({} : PX K) r y none (some e) = (.ok (),
      { x := some r, y := some y, dx := some (r.map (fun _ => 0)), dy := some e }) := by
    unfold setdata
    rw [if_neg (by simp [hd.leny])]
    simp only [Option.getD_none, Option.getD_some, List.length_map]
    rw [if_neg (by simp [hd.lene])]
  rw [hset] at h
  simp only at h
  split at h
  · simp at h
  · rename_i t' heq
    simp only [Except.ok.injEq] at h
    subst h
    unfold setvars at heq
    have hl : setLoop [.baseline s.baseline, .cres s.cres, .pf s.pf, .error_method s.errorMethod]
        ({ x := some r, y := some y, dx := some (r.map (fun _ => 0)), dy := some e } : PX K) = (.ok (),
        { x := some r, y := some y, dx := some (r.map (fun _ => 0)), dy := some e, baseline := s.baseline,
          cres := s.cres, pf := s.pf, errorMethod := s.errorMethod }) := rfl
    rw [hl] at heq
    have hdef : Defaulted D _ t' := defaulted (by exact heq)
    have hdy : t'.dy = some e := hdef.dy
    refine ⟨⟨hdef.x, hdef.y, ⟨e, hdy, hd.lene⟩, ?_, hd.inc, hd.leny⟩, hdef.pf, hdef.ip, hdef.bl, hdef.cres, ?_⟩
    · exact hdef.eff r y e rfl rfl rfl hd.lene (by intro l hl; simp at hl)
    · intro v hv
      rw [hdef.em]
      simp only [hv, Option.getD_some]

/-- What the job is made of. -/
theorem jobOf_ok {H : Heap K} {t : PX K} {J : Job K} (h : jobOf H t = .ok J) :
    ∃ x y e a b bl ip cres em pf lo hi, t.x = some x ∧ t.y = some y ∧ t.effdy = .array e ∧
      t.rng = some (some a, some b) ∧ t.baseline = some (.inst bl) ∧ t.initialPeaks = some ip ∧ t.cres = some cres ∧
      t.errorMethod = some em ∧ t.pf = some pf ∧ getrangeslice x a b = .ok (lo, hi) ∧
      J = ⟨getSlice x (some (lo, hi.toNat)), getSlice y (some (lo, hi.toNat)), getSlice e (some (lo, hi.toNat)),
        H.base bl, H.peaks ip, cres, em, H.funcs pf⟩ := by
  unfold jobOf at h
  split at h
  · rename_i x y e a b bl ip cres em pf h1 h2 h3 h4 h5 h6 h7 h8 h9
    split at h
    · simp at h
    · rename_i lo hi hr
      simp only [Except.ok.injEq] at h
      exact ⟨x, y, e, a, b, bl, ip, cres, em, pf, lo, hi, h1, h2, h3, h4, h5, h6, h7, h8, h9, hr, h.symm⟩
  · simp at h

theorem job_data {H : Heap K} {D : Defaults K} {s t : PX K} {J : Job K} {x y : List K} (hs : Ready s x y)
    (hd : Defaulted D s t) (h : jobOf H t = .ok J) : Data J.x J.y J.dy := by
  obtain ⟨x', y', e, a, b, bl, ip, cres, em, pf, lo, hi, h1, h2, h3, -, -, -, -, -, -, -, rfl⟩ := jobOf_ok h
  rw [hd.x, hs.hasx, Option.some.injEq] at h1
  rw [hd.y, hs.hasy, Option.some.injEq] at h2
  subst h1 h2
  obtain ⟨dy, hdy, hl⟩ := hs.hasdy
  have := hd.eff x y dy hs.hasx hs.hasy hdy hl hs.heff e h3
  refine ⟨List.Pairwise.sublist (getSlice_sublist _ _) hs.inc, ?_, ?_⟩
  · simp only [length_getSlice, hs.leny]
  · simp only [length_getSlice, this]

/-- No search on an empty range ever returns. -/
theorem search_empty {W : World K} {J : Job K} (hx : J.x = []) {rec : Deeper K} {top : Bool} {c : Cluster K} :
    search W J rec top ≠ .ok c := by
  intro h
  unfold search searchN at h
  simp only at h
  obtain ⟨dc, -, h⟩ := bind_ok h
  obtain ⟨first, e2, -⟩ := bind_ok h
  unfold newCluster at e2
  simp only at e2
  split at e2
  · simp at e2
  · rename_i c' heq
    obtain ⟨b, -, hn⟩ := changeSlice_ok heq
    unfold updateNever maxNeg at hn
    simp only at hn
    rw [if_pos] at hn
    · simp at hn
    · unfold Slice.get getSlice excess
      rw [hx]
      simp

/-! ### Specification -/

/-- The entries of `l` that belong to the coordinates between `a` and `b`. -/
def inRange {α : Type} (x : List K) (a b : K) (l : List α) : List α :=
  ((x.zip l).filter (fun p => decide (a ≤ p.1 ∧ p.1 ≤ b))).map Prod.snd

theorem filter_interval {α : Type} (P : α → Bool) : ∀ (l : List α) (lo hi : ℕ),
    (∀ (i : ℕ) (h : i < l.length), P l[i] = true ↔ lo ≤ i ∧ i < hi) → l.filter P = (l.take hi).drop lo := by
  intro l
  induction l with
  | nil => intro lo hi _; simp
  | cons a l ih =>
    intro lo hi h
    have h0 := h 0 (by simp)
    have hs : ∀ (i : ℕ) (hi' : i < l.length), P l[i] = true ↔ lo - 1 ≤ i ∧ i < hi - 1 ∨ (lo ≤ i + 1 ∧ i + 1 < hi) := by
      intro i hi'
      have := h (i + 1) (by simpa using hi')
      simp only [List.getElem_cons_succ] at this
      rw [this]; omega
    have hs' := ih (lo - 1) (hi - 1) (by intro i hi'; rw [hs i hi']; omega)
    simp only [List.getElem_cons_zero] at h0
    cases hi with
    | zero =>
      have : ¬ (P a = true) := by rw [h0]; omega
      rw [List.filter_cons_of_neg this, hs']
      simp
    | succ hi =>
      cases lo with
      | zero =>
        rw [List.filter_cons_of_pos (by rw [h0]; omega), hs']
        simp
      | succ lo =>
        rw [List.filter_cons_of_neg (by rw [h0]; omega), hs']
        simp

theorem getSlice_inRange {α : Type} {x : List K} {a b : K} {lo hi : ℕ}
    (h : ∀ (i : ℕ) (h : i < x.length), (lo ≤ i ∧ i < hi) ↔ (a ≤ x[i] ∧ x[i] ≤ b)) {l : List α}
    (hl : l.length = x.length) : getSlice l (some (lo, hi)) = inRange x a b l := by
  unfold inRange
  rw [filter_interval _ (x.zip l) lo hi]
  · rw [List.map_drop, List.map_take, List.map_snd_zip (by omega)]
    unfold getSlice bounds
    simp only
    apply List.ext_getElem?
    intro i
    simp only [List.getElem?_take, List.getElem?_drop]
    by_cases h1 : lo ≤ l.length
    · rw [Nat.min_eq_left h1]
      by_cases h2 : lo + i < hi
      · by_cases h3 : lo + i < l.length
        · rw [if_pos (by omega), if_pos h2]
        · rw [if_pos h2, List.getElem?_eq_none (by omega)]; simp
      · rw [if_neg (by omega), if_neg h2]
    · rw [if_neg (by omega)]
      by_cases h2 : lo + i < hi
      · rw [if_pos h2, List.getElem?_eq_none (by omega)]
      · rw [if_neg h2]
  · intro i hi'
    simp only [List.getElem_zip, decide_eq_true_eq]
    exact (h i (by simp at hi'; omega)).symm

/-- The same peak up to the values of free parameters: same function, free parameters, removability, the same values where they are held
fixed (up to normalisation), and both or none have as many values as the function has parameters. -/
def SamePeak (p q : Part K) : Prop :=
  p.owner = q.owner ∧ p.free = q.free ∧ p.removable = q.removable ∧ p.staticOwner = q.staticOwner ∧ (Shaped p ↔ Shaped q) ∧ Fixed p = Fixed q

theorem samePeak_iff (p q : Part K) : SamePeak p q ↔ key p = key q := by
  unfold SamePeak key
  simp

/-- The result of a search by the user's data, variables and objects; no internal helper of the search occurs. -/
structure Result (D : Defaults K) (H : Heap K) (s t : PX K) (x y : List K) (depth : ℕ) (c : Cluster K) : Prop where
  /-- exactly the data of the range -/
  data : ∃ x0 x1 e, x.head? = some x0 ∧ x.getLast? = some x1 ∧ t.effdy = .array e ∧
    c.r = inRange x (rangeOf s x0 x1).1 (rangeOf s x0 x1).2 x ∧
    c.y = inRange x (rangeOf s x0 x1).1 (rangeOf s x0 x1).2 y ∧
    c.err = inRange x (rangeOf s x0 x1).1 (rangeOf s x0 x1).2 e
  /-- one cluster over all of them -/
  whole : ∃ sl, c.slice = some sl ∧ sl.get c.r = c.r ∧ c.r ≠ []
  /-- quality by the evaluator of the variables, peak functions of the variables -/
  method : t.errorMethod = some c.method
  funcs : ∃ pf, t.pf = some pf ∧ ∀ f ∈ c.funcs, f ∈ H.funcs pf
  /-- the baseline, with new parameter values at the top level only -/
  base : ∃ bl b', t.baseline = some (.inst bl) ∧ c.baseline = some b' ∧ SamePeak b' (H.base bl) ∧
    (depth ≠ 1 → b' = H.base bl)

/-! ### The recursion, by induction on the nesting -/

variable {W : World K} {H : Heap K} {D : Defaults K}

/-- The recursive searches of a search whose job is `J`, given what searches nested `n` deep find. -/
theorem deeper_finds (hN : H.peaks D.noPeaks = []) {Q : List ℕ → Key K → Prop} {n depth : ℕ} {t : PX K} {J : Job K} (hJ : jobOf H t = .ok J)
    (ih : ∀ (s : PX K) (c : Cluster K) (x y : List K), Ready s x y → extractSingle W H D n (depth + 1) s = .ok c →
      ∃ t J, defaultvars D s = (.ok (), t) ∧ jobOf H t = .ok J ∧ Data J.x J.y J.dy ∧ J.x ≠ [] ∧
        Found W J (Q J.funcs) (decide (depth + 1 = 1)) c) :
    Finds (if depth < 3 then some (fun r y e =>
        match subSearch D t r y e with
        | .error e => .error e
        | .ok t => extractSingle W H D n (depth + 1) t)
      else none) (Q J.funcs) := by
  intro f hf r y' e c' hd hc
  split at hf
  · simp only [Option.some.injEq] at hf
    subst hf
    simp only at hc
    split at hc
    · simp at hc
    · rename_i t' ht'
      obtain ⟨hr', hpf, hip, -, -, -⟩ := subSearch_ready hd ht'
      obtain ⟨t2, J2, hd2, hj2, -, -, hfound⟩ := ih t' c' r y' hr' hc
      have hdef2 := defaulted hd2
      obtain ⟨_, _, _, _, _, _, ip, _, _, pf, _, _, -, -, -, -, -, -, -, -, hpf1, -, rfl⟩ := jobOf_ok hJ
      obtain ⟨_, _, _, _, _, _, ip2, _, _, pf2, _, _, -, -, -, -, -, hip2, -, -, hpf2, -, rfl⟩ := jobOf_ok hj2
      have e1 := hdef2.pf _ (hpf _ hpf1)
      rw [hpf2, Option.some.injEq] at e1
      have e2 := hdef2.ip
      rw [hip2, hip, Option.some.injEq, Option.getD_some] at e2
      subst e1 e2
      rcases hfound.model with ⟨m, hm, hk⟩ | ⟨-, hk⟩
      · simp only [hN, List.nil_append] at hk
        exact hm.of_kept hk
      · exact hk
  · simp at hf

theorem extract_found_by (hS : Sane W) {Q : List ℕ → Key K → Prop} (hQ : ∀ J : Job K, Supplies W J (Q J.funcs)) (hN : H.peaks D.noPeaks = []) :
    ∀ (n depth : ℕ) (s : PX K) (c : Cluster K) (x y : List K), Ready s x y →
    extractSingle W H D n depth s = .ok c →
    ∃ t J, defaultvars D s = (.ok (), t) ∧ jobOf H t = .ok J ∧ Data J.x J.y J.dy ∧ J.x ≠ [] ∧
      Found W J (Q J.funcs) (decide (depth = 1)) c := by
  intro n
  induction n with
  | zero => intro depth s c x y _ h; simp [extractSingle] at h
  | succ n ih =>
    intro depth s c x y hr h
    unfold extractSingle at h
    split at h
    · simp at h
    · rename_i t hdv
      split at h
      · simp at h
      · rename_i J hJ
        have hdef := defaulted hdv
        have hdata := job_data hr hdef hJ
        have hne : J.x ≠ [] := fun h0 => search_empty h0 h
        exact ⟨t, J, hdv, hJ, hdata, hne, search_found hS (hQ J) (deeper_finds hN hJ (ih (depth + 1))) hdata hne h⟩

theorem extract_found (hS : Sane W) (hE : Estimates W) (hN : H.peaks D.noPeaks = []) :
    ∀ (n depth : ℕ) (s : PX K) (c : Cluster K) (x y : List K), Ready s x y →
    extractSingle W H D n depth s = .ok c →
    ∃ t J, defaultvars D s = (.ok (), t) ∧ jobOf H t = .ok J ∧ Data J.x J.y J.dy ∧ J.x ≠ [] ∧
      Found W J (Supplied W.func J.funcs) (decide (depth = 1)) c :=
  extract_found_by hS (supplies hE) hN

/-! ### The properties -/

/-- The data the search works on are those of the selected range. -/
theorem job_range {H : Heap K} {D : Defaults K} {s t : PX K} {J : Job K} {x y : List K} (hr : Ready s x y)
    (hdv : defaultvars D s = (.ok (), t)) (hJ : jobOf H t = .ok J) (hne : J.x ≠ []) :
    ∃ x0 x1 e, x.head? = some x0 ∧ x.getLast? = some x1 ∧ t.effdy = .array e ∧
      J.x = inRange x (rangeOf s x0 x1).1 (rangeOf s x0 x1).2 x ∧
      J.y = inRange x (rangeOf s x0 x1).1 (rangeOf s x0 x1).2 y ∧
      J.dy = inRange x (rangeOf s x0 x1).1 (rangeOf s x0 x1).2 e := by
  have hdef := defaulted hdv
  obtain ⟨x', y', e, a, b, bl, ip, cres, em, pf, lo, hi, h1, h2, h3, h4, h5, h6, h7, h8, h9, h10, rfl⟩ := jobOf_ok hJ
  rw [hdef.x, hr.hasx, Option.some.injEq] at h1
  rw [hdef.y, hr.hasy, Option.some.injEq] at h2
  subst h1 h2
  obtain ⟨dy, hdy, hl⟩ := hr.hasdy
  have hle := hdef.eff x y dy hr.hasx hr.hasy hdy hl hr.heff e h3
  have hx0 : x ≠ [] := by
    rintro rfl
    apply hne
    simp [getSlice]
  obtain ⟨x0, hx0'⟩ : ∃ x0, x.head? = some x0 := by
    cases x with
    | nil => exact absurd rfl hx0
    | cons a l => exact ⟨a, rfl⟩
  obtain ⟨x1, hx1'⟩ : ∃ x1, x.getLast? = some x1 := ⟨x.getLast hx0, List.getLast?_eq_some_getLast hx0⟩
  have hrng := hdef.rng x x0 x1 hr.hasx hx0' hx1'
  rw [h4] at hrng
  simp only [Option.some.injEq, Prod.mk.injEq] at hrng
  obtain ⟨ra, rb⟩ := hrng
  have hc40 := c40_range_slice x (hr.inc.imp le_of_lt) a b x0 x1 hx0' hx1'
  have hab : a ≤ x1 ∧ x0 ≤ b := by
    by_contra hcon
    rw [hc40.2 hcon] at h10
    simp at h10
  obtain ⟨lo', hi', e1, -, -, hiff⟩ := hc40.1 hab
  rw [e1] at h10
  simp only [Except.ok.injEq, Prod.mk.injEq] at h10
  obtain ⟨rfl, rfl⟩ := h10
  simp only [Int.toNat_natCast]
  refine ⟨x0, x1, e, hx0', hx1', h3, ?_, ?_, ?_⟩
  · rw [← ra, ← rb]; exact getSlice_inRange hiff rfl
  · rw [← ra, ← rb]; exact getSlice_inRange hiff hr.leny
  · rw [← ra, ← rb]; exact getSlice_inRange hiff hle

/-- **C68.** If `extract_single` returns, the extracted cluster is over exactly the data whose coordinates lie in
the range (with their original values: the initial peaks that were subtracted have been added back, whatever was
joined or searched recursively), it is one cluster over all of them, has the evaluator and no other peak functions
than those of the variables, and the baseline is the one of the variables, with parameter values that may have
changed at the top level only. -/
theorem c68_whole_range (hS : Sane W) (hE : Estimates W) (hN : H.peaks D.noPeaks = []) {n depth : ℕ} {s : PX K}
    {c : Cluster K} {x y : List K} (hr : Ready s x y) (h : extractSingle W H D n depth s = .ok c) :
    ∃ t, defaultvars D s = (.ok (), t) ∧ Result D H s t x y depth c := by
  obtain ⟨t, J, hdv, hJ, hdata, hne, hf⟩ := extract_found hS hE hN n depth s c x y hr h
  obtain ⟨x0, x1, e, hx0, hx1, he, d1, d2, d3⟩ := job_range hr hdv hJ hne
  refine ⟨t, hdv, ?_⟩
  obtain ⟨x', y', e', a, b, bl, ip, cres, em, pf, lo, hi, h1, h2, h3, h4, h5, h6, h7, h8, h9, h10, rfl⟩ := jobOf_ok hJ
  refine ⟨⟨x0, x1, e, hx0, hx1, he, ?_, ?_, ?_⟩, ?_, ?_, ⟨pf, h9, hf.funcs⟩, ?_⟩
  · rw [hf.r, ← d1]
  · rw [hf.y, ← d2]
  · rw [hf.err, ← d3]
  · refine ⟨_, hf.slice, ?_, by rw [hf.r]; exact hne⟩
    rw [hf.r]
    unfold Slice.get
    simp only [Option.getD_some]
    generalize getSlice x' (some (lo, hi.toNat)) = l
    simp [getSlice, bounds]
  · rw [hf.method]; exact h8
  · rcases hf.base with hb | ⟨ht, p, p', hp, hp', hfr⟩
    · exact ⟨bl, H.base bl, h5, hb, ⟨rfl, rfl, rfl, rfl, Iff.rfl, rfl⟩, fun _ => rfl⟩
    · simp only [Option.some.injEq] at hp
      refine ⟨bl, p', h5, hp', ?_, ?_⟩
      · rw [hp]; exact ⟨hfr.owner, hfr.free, hfr.removable, hfr.static, iff_of_eq hfr.shaped, hfr.fixed⟩
      · intro hd
        simp only [decide_eq_true_eq] at ht
        exact absurd ht hd

/-- **C68.** The main loop ends after as many iterations as there are points, at most: a larger bound on their number
changes neither what is returned nor what is raised. -/
theorem c68_loop_bound (hS : Sane W) (hE : Estimates W) {J : Job K} (hx : Data J.x J.y J.dy) (hx0 : J.x ≠ [])
    {rec : Deeper K} (hR : Finds rec (Supplied W.func J.funcs)) {top : Bool} {n : ℕ} (hn : J.x.length ≤ n) :
    searchN W J rec top n = search W J rec top := by
  obtain ⟨k, rfl⟩ := Nat.exists_eq_add_of_le hn
  unfold search searchN
  simp only
  generalize hy0 : List.zipWith (fun a b => b - W.val J.bl a - valueAt W.val J.ip a) J.x J.y = y0
  generalize hyd : List.zipWith (fun a b => b - valueAt W.val J.ip a) J.x J.y = yd
  have hl0 : J.x.length = y0.length := by rw [← hy0, List.length_zipWith, hx.leny, min_self]
  have hld : yd.length = J.x.length := by rw [← hyd, List.length_zipWith, hx.leny, min_self]
  have hxd : Data J.x yd J.dy := ⟨hx.inc, hld, hx.lene⟩
  have ho := argsort_of_sortsKeys hS.sorts y0
  cases hmk : Cluster.mk J.x y0 J.cres (W.as y0) with
  | error o => rfl
  | ok dc =>
    obtain ⟨-, -, hinv, hproc, hcur, hlen⟩ := Cluster.inv_mk hx0 ho hmk
    simp only [bind, Except.bind]
    cases e2 : newCluster W J [] (some J.bl) J.x yd J.dy (some ⟨some (Cluster.cut dc 0).1, (Cluster.cut dc 0).2⟩) with
    | error e => rfl
    | ok first =>
      simp only
      cases maxOf (J.funcs.map (W.minpoints J.method)) with
      | error e => rfl
      | ok mp =>
        simp only
        have hpos : 0 < J.x.length := List.length_pos_iff.2 hx0
        have hI : Cluster.LoopInv J.x y0 J.cres (W.as y0) ⟨dc, [Cluster.cut dc 0]⟩ := by
          refine ⟨hinv, hproc, ?_, ?_⟩
          · intro i hi
            have : i + 1 < dc.clusters.length := hi
            omega
          · show [Cluster.cut dc 0] = dc.clusters.map Cluster.sl
            match hcl : dc.clusters, hlen with
            | [c], _ => simp [Cluster.cut, Cluster.sl, Cluster.row, hcl]
        obtain ⟨o1, sl1, -, -⟩ := newCluster_of (Q := Supplied W.func J.funcs) Keys.nil e2
        have hsync : Sync J (Supplied W.func J.funcs) J.x yd J.dy (some J.bl) [first] [Cluster.cut dc 0] := by
          refine .cons ⟨o1, sl1, ?_⟩ .nil
          have hr : Cluster.row dc.clusters 0 ∈ dc.clusters := by
            match hcl : dc.clusters, hlen with
            | [c], _ => simp [Cluster.row]
          have := hinv.wf.valid _ hr
          unfold Cluster.cut
          simp only
          omega
        rw [mainLoop_fuel hS (supplies hE J) hR hxd hl0 ho J.x.length k dc [first] _ hI hsync hinv.cur]

/-- **C69.** Every extracted peak is of one of the supplied peak functions (removable, all parameters free), or is one of the initial peaks up to
parameter values; and no initial peak occurs more often than it was given (beside peaks of the supplied functions). -/
theorem c69_provenance (hS : Sane W) (hE : Estimates W) (hN : H.peaks D.noPeaks = []) {n depth : ℕ} {s : PX K}
    {c : Cluster K} {x y : List K} (hr : Ready s x y) (h : extractSingle W H D n depth s = .ok c) :
    ∃ t pf ip, defaultvars D s = (.ok (), t) ∧ t.pf = some pf ∧ (∀ f, s.pf = some f → f = pf) ∧
      ip = s.initialPeaks.getD D.noPeaks ∧
      (∀ p ∈ c.model, New W.func (H.funcs pf) p ∨ ∃ q ∈ H.peaks ip, SamePeak p q) ∧
      (∃ m : List (Part K), (∀ p ∈ m, New W.func (H.funcs pf) p) ∧
        (c.model.map key).Subperm ((H.peaks ip ++ m).map key)) := by
  obtain ⟨t, J, hdv, hJ, -, -, hf⟩ := extract_found hS hE hN n depth s c x y hr h
  have hdef := defaulted hdv
  obtain ⟨x', y', e, a, b, bl, ip, cres, em, pf, lo, hi, h1, h2, h3, h4, h5, h6, h7, h8, h9, h10, rfl⟩ := jobOf_ok hJ
  have hip := hdef.ip
  rw [h6, Option.some.injEq] at hip
  refine ⟨t, pf, ip, hdv, h9, ?_, hip, ?_, ?_⟩
  · intro f hs
    have := hdef.pf f hs
    rw [h9, Option.some.injEq] at this
    exact this.symm
  · intro p hp
    rcases hf.model with ⟨m, hm, hk⟩ | ⟨-, hk⟩
    · have : key p ∈ (H.peaks ip ++ m).map key := hk.sub.subset (List.mem_map.2 ⟨p, hp, rfl⟩)
      obtain ⟨q, hq, e⟩ := List.mem_map.1 this
      rcases List.mem_append.1 hq with hq | hq
      · exact Or.inr ⟨q, hq, (samePeak_iff p q).2 e.symm⟩
      · left
        have := hm q hq
        rw [e] at this
        exact this
    · exact Or.inl (hk p hp)
  · rcases hf.model with ⟨m, hm, hk⟩ | ⟨-, hk⟩
    · exact ⟨m, hm, hk.sub⟩
    · refine ⟨c.model, hk, ?_⟩
      rw [List.map_append]
      exact (List.sublist_append_right _ _).subperm

/-- **C70.** The non-removable peaks of the result are, up to parameter values and order, exactly the non-removable
initial peaks: none is lost in joining, recursion, pruning or fitting, and none is made. -/
theorem c70_hard_kept (hS : Sane W) (hE : Estimates W) (hN : H.peaks D.noPeaks = []) {n depth : ℕ} {s : PX K}
    {c : Cluster K} {x y : List K} (hr : Ready s x y) (h : extractSingle W H D n depth s = .ok c) :
    ((c.model.filter (fun p => !p.removable)).map key).Perm
      (((H.peaks (s.initialPeaks.getD D.noPeaks)).filter (fun p => !p.removable)).map key) := by
  obtain ⟨t, J, hdv, hJ, -, -, hf⟩ := extract_found hS hE hN n depth s c x y hr h
  have hdef := defaulted hdv
  obtain ⟨x', y', e, a, b, bl, ip, cres, em, pf, lo, hi, h1, h2, h3, h4, h5, h6, h7, h8, h9, h10, rfl⟩ := jobOf_ok hJ
  have hip := hdef.ip
  rw [h6, Option.some.injEq] at hip
  subst hip
  have h0 : ∀ m : List (Part K), Keys (Supplied W.func (H.funcs pf)) m → hard m = [] := by
    intro m hm
    unfold hard
    rw [List.map_eq_nil_iff, List.filter_eq_nil_iff]
    intro p hp
    have := (hm p hp).2.1
    have h' : p.removable = true := this
    simp [h']
  rcases hf.model with ⟨m, hm, hk⟩ | ⟨hip, hk⟩
  · have := hk.hard
    rw [hard_append, h0 m hm, List.append_nil] at this
    exact this
  · have e1 := h0 _ hk
    simp only at hip
    unfold hard at e1 hip
    rw [e1, hip]

/-- **C71.** Calls of `extract_single` nest at most three deep: at depth `d` a bound of `4 - d` nested calls (one
at least) is as good as any larger one, whatever the data and the numerics. -/
theorem c71_depth (W : World K) (H : Heap K) (D : Defaults K) : ∀ (n m depth : ℕ) (s : PX K),
    1 ≤ n → 4 - depth ≤ n → 1 ≤ m → 4 - depth ≤ m →
    extractSingle W H D n depth s = extractSingle W H D m depth s := by
  intro n
  induction n with
  | zero => intro m depth s h; omega
  | succ n ih =>
    intro m depth s _ hn hm hmd
    match m, hm with
    | m + 1, _ =>
      unfold extractSingle
      have this : ∀ t : PX K, depth < 3 → extractSingle W H D n (depth + 1) t = extractSingle W H D m (depth + 1) t :=
        fun t hd => ih m (depth + 1) t (by omega) (by omega) (by omega) (by omega)
      cases hdv : defaultvars D s with
      | mk r t =>
        cases r with
        | error e => rfl
        | ok u =>
          simp only
          cases hj : jobOf H t with
          | error e => rfl
          | ok J =>
            simp only
            congr 1
            by_cases hd : depth < 3
            · rw [if_pos hd, if_pos hd]
              congr 1
              funext r y e
              cases subSearch D t r y e with
              | error e => rfl
              | ok t' => exact this t' hd
            · rw [if_neg hd, if_neg hd]

end Verif.Parts.Extract
