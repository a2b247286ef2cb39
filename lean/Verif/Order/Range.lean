import Verif.Repeat.Props

/-!
# Property C109: restricting the range is restricting the data

## Specification
-/

set_option linter.unusedSectionVars false

namespace Verif.Parts.Order

open Verif.Py Verif.PeakList Verif.Extraction Verif.Pdf Verif.Parts.Extract Verif.Parts.ModelCluster Verif.Parts.PdfExtract

section

variable {K : Type} [Field K] [LinearOrder K] [IsStrictOrderedRing K]

/-- The entries of `l` at the points of `x` in `[a, b]`. -/
def keep (a b : K) (x l : List K) : List K := ((x.zip l).filter (fun p => decide (a ≤ p.1 ∧ p.1 ≤ b))).map Prod.snd

/-- The data and uncertainties in `[a, b]`, and no range. -/
def restricted (a b : K) (x : List K) (s : PX K) : PX K :=
  { s with
    x := some (keep a b x x), y := s.y.map (keep a b x), dx := s.dx.map (keep a b x), dy := s.dy.map (keep a b x)
    effdy := match s.effdy with | .array e => .array (keep a b x e) | v => v
    rng := none }

/-- The effective uncertainties are given: as an array, as a positive number, or by uncertainties of the data that are all positive. -/
def Given (s : PX K) : Prop :=
  (∃ e, s.effdy = .array e) ∨ (∃ v, s.effdy = .scalar v ∧ 0 < v) ∨ (s.effdy = .unset ∧ ∀ dy, s.dy = some dy → ∀ v ∈ dy, 0 < v)

/-! ## Lemmas -/

theorem filter_interval {α : Type} (p : α → Bool) (z : List α) (lo hi : ℕ) (h : ∀ (i : ℕ) (hi' : i < z.length), p z[i] = true ↔ (lo ≤ i ∧ i < hi)) :
    z.filter p = (z.drop lo).take (hi - lo) := by
  induction z generalizing lo hi with
  | nil => simp
  | cons a z ih =>
    have h0 := h 0 (by simp)
    simp only [List.getElem_cons_zero] at h0
    have hs : ∀ (i : ℕ) (hi' : i < z.length), p z[i] = true ↔ (lo - 1 ≤ i ∧ i < hi - 1 ∧ lo ≤ i + 1 ∧ i + 1 < hi) := by
      intro i hi'
      have := h (i + 1) (by simp; omega)
      simp only [List.getElem_cons_succ] at this
      rw [this]
      omega
    cases lo with
    | zero =>
      cases hi with
      | zero =>
        rw [List.filter_cons_of_neg (by rw [h0]; omega)]
        have := ih 0 0 (by intro i hi'; rw [hs]; omega)
        simpa using this
      | succ hi =>
        rw [List.filter_cons_of_pos (by rw [h0]; omega)]
        have := ih 0 hi (by intro i hi'; rw [hs]; omega)
        simp only [List.drop_zero, Nat.sub_zero] at this ⊢
        rw [this, List.take_succ_cons]
    | succ lo =>
      rw [List.filter_cons_of_neg (by rw [h0]; omega), List.drop_succ_cons]
      have := ih lo (hi - 1) (by intro i hi'; rw [hs]; omega)
      rw [this]
      congr 1
      omega

theorem keep_slice {a b : K} {x l : List K} (hl : l.length = x.length) {lo hi : ℕ} (hh : hi ≤ x.length)
    (h : ∀ (i : ℕ) (hi' : i < x.length), (lo ≤ i ∧ i < hi) ↔ (a ≤ x[i] ∧ x[i] ≤ b)) : getSlice l (some (lo, hi)) = keep a b x l := by
  unfold keep
  rw [filter_interval _ _ lo hi (by
    intro i hi'
    rw [List.length_zip, hl, min_self] at hi'
    rw [List.getElem_zip, decide_eq_true_eq]
    exact (h i hi').symm)]
  rw [List.map_take, List.map_drop, List.map_snd_zip (by omega)]
  unfold getSlice bounds
  simp only [hl]
  by_cases hlo : lo ≤ x.length
  · rw [min_eq_left hlo, min_eq_left hh]
    congr 1
    omega
  · rw [List.drop_of_length_le (by omega), List.drop_of_length_le (by omega)]
    simp

theorem keep_length {a b : K} {x l : List K} (hl : l.length = x.length) : (keep a b x l).length = (keep a b x x).length := by
  have h : ∀ l : List K, l.length = x.length → (keep a b x l).length = (x.filter (fun v => decide (a ≤ v ∧ v ≤ b))).length := by
    intro l hl
    unfold keep
    rw [List.length_map]
    have : x = (x.zip l).map Prod.fst := (List.map_fst_zip (by omega)).symm
    conv_rhs => rw [this, List.filter_map, List.length_map]
    rfl
  rw [h l hl, h x rfl]

theorem keep_self {a b : K} {x : List K} : keep a b x x = x.filter (fun v => decide (a ≤ v ∧ v ≤ b)) := by
  unfold keep
  induction x with
  | nil => rfl
  | cons v x ih =>
    rw [List.zip_cons_cons]
    by_cases hv : a ≤ v ∧ v ≤ b
    · rw [List.filter_cons_of_pos (by simpa using hv), List.filter_cons_of_pos (by simpa using hv), List.map_cons, ih]
    · rw [List.filter_cons_of_neg (by simpa using hv), List.filter_cons_of_neg (by simpa using hv), ih]

/-- All points lie between the first and the last one. -/
theorem keep_ends {x l : List K} (hl : l.length = x.length) (hx : x.Pairwise (· < ·)) {x0 x1 : K} (h0 : x.head? = some x0) (h1 : x.getLast? = some x1) :
    keep x0 x1 x l = l := by
  unfold keep
  rw [List.filter_eq_self.2, List.map_snd_zip (by omega)]
  intro p hp
  have hm : p.1 ∈ x := (List.of_mem_zip (a := p.1) (b := p.2) hp).1
  rw [decide_eq_true_eq]
  constructor
  · cases x with
    | nil => simp at h0
    | cons a x =>
      simp only [List.head?_cons, Option.some.injEq] at h0
      subst h0
      rcases List.mem_cons.1 hm with h | h
      · exact le_of_eq h.symm
      · exact le_of_lt ((List.pairwise_cons.1 hx).1 _ h)
  · obtain ⟨ys, rfl⟩ := List.getLast?_eq_some_iff.1 h1
    rcases List.mem_append.1 hm with h | h
    · exact le_of_lt ((List.pairwise_append.1 hx).2.2 _ h x1 (by simp))
    · exact le_of_eq (by simpa using h)

/-- The slice of the range. -/
theorem slice_keep {a b x0 x1 : K} {x : List K} (hx : x.Pairwise (· < ·)) (h0 : x.head? = some x0) (h1 : x.getLast? = some x1) (hne : keep a b x x ≠ []) :
    ∃ lo hi : ℕ, getrangeslice x a b = .ok (lo, (hi : ℤ)) ∧ ∀ l : List K, l.length = x.length → getSlice l (some (lo, hi)) = keep a b x l := by
  have hab : a ≤ x1 ∧ x0 ≤ b := by
    obtain ⟨v, hv⟩ := List.exists_mem_of_ne_nil _ hne
    rw [keep_self, List.mem_filter, decide_eq_true_eq] at hv
    have he := keep_ends rfl hx h0 h1
    have hv' : v ∈ keep x0 x1 x x := by rw [he]; exact hv.1
    rw [keep_self, List.mem_filter, decide_eq_true_eq] at hv'
    exact ⟨le_trans hv.2.1 hv'.2.2, le_trans hv'.2.1 hv.2.2⟩
  obtain ⟨lo, hi, g1, -, g3, g4⟩ := (c40_range_slice x (hx.imp le_of_lt) a b x0 x1 h0 h1).1 hab
  exact ⟨lo, hi, g1, fun l hl => keep_slice hl g3 g4⟩

/-- The effective uncertainties that are used. -/
def effOf (x : List K) (s : PX K) : List K :=
  match s.effdy with
  | .array e => e
  | .scalar v => x.map (fun _ => v)
  | .unset => s.dy.getD []

variable {D : Defaults K}

theorem default_given {s : PX K} {x y : List K} (hr : Ready s x y) (hg : Given s) {c : K} (hc : s.cres = some c) {f : ℕ} (hf : s.pf = some f)
    {x0 x1 : K} (h0 : x.head? = some x0) (h1 : x.getLast? = some x1) :
    (effOf x s).length = x.length ∧
    defaultvars D s = andThen (defBaseline D { s with effdy := .array (effOf x s), rng := some (some (rangeOf s x0 x1).1, some (rangeOf s x0 x1).2) })
      (fun s => (.ok (), defRest D s)) := by
  obtain ⟨dy, hdy, hdyl⟩ := hr.hasdy
  have hrng : ∀ e, defRng { s with effdy := .array e } =
      (.ok (), { s with effdy := .array e, rng := some (some (rangeOf s x0 x1).1, some (rangeOf s x0 x1).2) }) := by
    intro e
    unfold defRng rangeOf ends
    simp only [hr.hasx, h0, h1]
    cases s.rng with
    | none => rfl
    | some q => obtain ⟨a, b⟩ := q; cases a <;> cases b <;> rfl
  have key : ∀ e, defEffdy s = (.ok (), { s with effdy := .array e }) → defaultvars D s =
      andThen (defBaseline D { s with effdy := .array e, rng := some (some (rangeOf s x0 x1).1, some (rangeOf s x0 x1).2) }) (fun s => (.ok (), defRest D s)) := by
    intro e he
    unfold defaultvars
    have hcr : defCres s = (.ok (), s) := by unfold defCres; rw [hc]
    have hpf : defPf D { s with effdy := .array e } = (.ok (), { s with effdy := .array e }) := by unfold defPf; simp only [hf]
    rw [hcr]
    simp only [andThen]
    rw [he]
    simp only
    rw [hpf]
    simp only
    rw [hrng]
  rcases hg with ⟨e, he⟩ | ⟨v, hv, hpos⟩ | ⟨hu, hpos⟩
  · have : effOf x s = e := by unfold effOf; rw [he]
    rw [this]
    refine ⟨hr.heff e he, key e ?_⟩
    unfold defEffdy
    rw [he]
    simp only
    rw [show s = { s with effdy := .array e } by rw [← he]]
  · have : effOf x s = x.map (fun _ => v) := by unfold effOf; rw [hv]
    rw [this]
    refine ⟨by simp, key _ ?_⟩
    unfold defEffdy
    rw [hv, hr.hasx]
    simp only [if_pos hpos]
  · have : effOf x s = dy := by unfold effOf; rw [hu, hdy]; rfl
    rw [this]
    refine ⟨hdyl, key _ ?_⟩
    unfold defEffdy
    rw [hu, hr.hasx, hr.hasy, hdy]
    simp only
    rw [if_pos (by rw [List.all_eq_true]; intro v hv; exact decide_eq_true (hpos dy hdy v hv))]

theorem keep_map {a b : K} {x : List K} (v : K) : keep a b x (x.map (fun _ => v)) = (keep a b x x).map (fun _ => v) := by
  unfold keep
  induction x with
  | nil => rfl
  | cons w x ih =>
    simp only [List.map_cons, List.zip_cons_cons]
    by_cases hw : a ≤ w ∧ w ≤ b
    · rw [List.filter_cons_of_pos (by simpa using hw), List.filter_cons_of_pos (by simpa using hw)]
      simp only [List.map_cons, ih]
    · rw [List.filter_cons_of_neg (by simpa using hw), List.filter_cons_of_neg (by simpa using hw), ih]

theorem mem_keep {a b v : K} {x l : List K} (h : v ∈ keep a b x l) : v ∈ l := by
  unfold keep at h
  obtain ⟨p, hp, rfl⟩ := List.mem_map.1 h
  exact (List.of_mem_zip (a := p.1) (b := p.2) (List.mem_filter.1 hp).1).2

theorem restricted_ready {s : PX K} {x y : List K} (hr : Ready s x y) (a b : K) : Ready (restricted a b x s) (keep a b x x) (keep a b x y) := by
  obtain ⟨dy, hdy, hdyl⟩ := hr.hasdy
  refine ⟨rfl, by simp [restricted, hr.hasy], ⟨keep a b x dy, by simp [restricted, hdy], keep_length hdyl⟩, ?_, ?_, keep_length hr.leny⟩
  · intro e he
    unfold restricted at he
    simp only at he
    split at he
    · rename_i e' he'
      simp only [EffDy.array.injEq] at he
      rw [← he]
      exact keep_length (hr.heff _ he')
    · rename_i hno
      exact absurd he (hno e)
  · rw [keep_self]
    exact hr.inc.filter _

theorem restricted_given {s : PX K} {x : List K} (hg : Given s) (a b : K) : Given (restricted a b x s) := by
  unfold Given restricted
  rcases hg with ⟨e, he⟩ | ⟨v, hv, hpos⟩ | ⟨hu, hpos⟩
  · left; exact ⟨keep a b x e, by simp [he]⟩
  · right; left; exact ⟨v, by simp [hv], hpos⟩
  · right; right
    refine ⟨by simp [hu], ?_⟩
    intro dy' h v hv
    simp only [Option.map_eq_some_iff] at h
    obtain ⟨dy, hdy, rfl⟩ := h
    exact hpos dy hdy v (mem_keep hv)

theorem restricted_eff {s : PX K} {x y : List K} (hr : Ready s x y) (a b : K) : effOf (keep a b x x) (restricted a b x s) = keep a b x (effOf x s) := by
  obtain ⟨dy, hdy, -⟩ := hr.hasdy
  unfold effOf restricted
  cases s.effdy with
  | unset => simp [hdy]
  | scalar v => exact (keep_map v).symm
  | array e => simp

/-- What `defaultvars` makes of the two objects. -/
theorem both_default {s : PX K} {x y : List K} (hr : Ready s x y) (hg : Given s) {c : K} (hc : s.cres = some c) {f : ℕ} (hf : s.pf = some f)
    {x0 x1 : K} (h0 : x.head? = some x0) (h1 : x.getLast? = some x1) {a b : K} (hab : rangeOf s x0 x1 = (a, b)) (hne : keep a b x x ≠ []) :
    ∃ (lo hi lo' hi' : ℕ) (z0 z1 : K) (r : Res Unit) (β : Option Base),
      (effOf x s).length = x.length ∧ (keep a b x x).head? = some z0 ∧ (keep a b x x).getLast? = some z1 ∧
      getrangeslice x a b = .ok (lo, (hi : ℤ)) ∧ (∀ l : List K, l.length = x.length → getSlice l (some (lo, hi)) = keep a b x l) ∧
      getrangeslice (keep a b x x) z0 z1 = .ok (lo', (hi' : ℤ)) ∧ (∀ l : List K, l.length = x.length → getSlice (keep a b x l) (some (lo', hi')) = keep a b x l) ∧
      defaultvars D s = andThen (r, { s with effdy := .array (effOf x s), rng := some (some a, some b), baseline := β }) (fun s => (.ok (), defRest D s)) ∧
      defaultvars D (restricted a b x s) =
        andThen (r, { restricted a b x s with effdy := .array (keep a b x (effOf x s)), rng := some (some z0, some z1), baseline := β }) (fun s => (.ok (), defRest D s)) := by
  obtain ⟨hl, hd⟩ := default_given (D := D) hr hg hc hf h0 h1
  have hr' := restricted_ready hr a b
  obtain ⟨z0, hz0⟩ : ∃ z, (keep a b x x).head? = some z := ⟨_, List.head?_eq_some_head hne⟩
  obtain ⟨z1, hz1⟩ : ∃ z, (keep a b x x).getLast? = some z := ⟨_, List.getLast?_eq_some_getLast hne⟩
  obtain ⟨hl', hd'⟩ := default_given (D := D) hr' (restricted_given hg a b) (c := c) hc (f := f) hf hz0 hz1
  rw [show rangeOf (restricted a b x s) z0 z1 = (z0, z1) from rfl, restricted_eff hr] at hd'
  rw [hab] at hd
  simp only at hd hd'
  obtain ⟨lo, hi, g1, g2⟩ := slice_keep hr.inc h0 h1 hne
  have hself : keep z0 z1 (keep a b x x) (keep a b x x) = keep a b x x := keep_ends rfl hr'.inc hz0 hz1
  obtain ⟨lo', hi', g1', g2'⟩ := slice_keep (a := z0) (b := z1) hr'.inc hz0 hz1 (by rw [hself]; exact hne)
  have g3 : ∀ l : List K, l.length = x.length → getSlice (keep a b x l) (some (lo', hi')) = keep a b x l := by
    intro l hl
    rw [g2' _ (keep_length hl), keep_ends (keep_length hl) hr'.inc hz0 hz1]
  have hb : ∃ r β, defBaseline D { s with effdy := .array (effOf x s), rng := some (some a, some b) } =
        (r, { s with effdy := .array (effOf x s), rng := some (some a, some b), baseline := β }) ∧
      defBaseline D { restricted a b x s with effdy := .array (keep a b x (effOf x s)), rng := some (some z0, some z1) } =
        (r, { restricted a b x s with effdy := .array (keep a b x (effOf x s)), rng := some (some z0, some z1), baseline := β }) := by
    have hs1 : selected { s with effdy := .array (effOf x s), rng := some (some a, some b) } = .ok (keep a b x x, keep a b x y) := by
      unfold selected
      simp only [hr.hasx, hr.hasy, g1, Int.toNat_natCast, g2 x rfl, g2 y hr.leny]
    have hs2 : selected { restricted a b x s with effdy := .array (keep a b x (effOf x s)), rng := some (some z0, some z1) } =
        .ok (keep a b x x, keep a b x y) := by
      unfold selected
      simp only [hr'.hasx, hr'.hasy, g1', Int.toNat_natCast, g3 x rfl, g3 y hr.leny]
    unfold defBaseline
    rw [hs1, hs2]
    simp only [show (restricted a b x s).baseline = s.baseline from rfl]
    cases hbl : s.baseline with
    | none => exact ⟨_, _, rfl, rfl⟩
    | some v =>
      cases v with
      | inst i => exact ⟨.ok (), some (.inst i), by simp only, by simp only⟩
      | func g =>
        simp only
        have hid : ∀ e : Err, ∃ r β, ((.error e, { s with effdy := .array (effOf x s), rng := some (some a, some b) }) : Res Unit × PX K) =
              (r, { s with effdy := .array (effOf x s), rng := some (some a, some b), baseline := β }) ∧
            ((.error e, { restricted a b x s with effdy := .array (keep a b x (effOf x s)), rng := some (some z0, some z1) }) : Res Unit × PX K) =
              (r, { restricted a b x s with effdy := .array (keep a b x (effOf x s)), rng := some (some z0, some z1), baseline := β }) :=
          fun e => ⟨_, s.baseline, rfl, rfl⟩
        cases D.estimate g (keep a b x x) (keep a b x y) with
        | ok b => exact ⟨_, _, rfl, rfl⟩
        | error e => cases e <;> first | exact hid _ | exact ⟨_, _, rfl, rfl⟩
  obtain ⟨r, β, hb1, hb2⟩ := hb
  rw [hb1] at hd
  rw [hb2] at hd'
  exact ⟨lo, hi, lo', hi', z0, z1, r, β, hl, hz0, hz1, g1, g2, g1', g3, hd, hd'⟩

/-- After `defaultvars` the two objects stand for the same search. -/
theorem same_job {H : Heap K} {s : PX K} {x y : List K} (hr : Ready s x y) (hg : Given s) {c : K} (hc : s.cres = some c) {f : ℕ} (hf : s.pf = some f)
    {x0 x1 : K} (h0 : x.head? = some x0) (h1 : x.getLast? = some x1) {a b : K} (hab : rangeOf s x0 x1 = (a, b)) (hne : keep a b x x ≠ []) :
    (defaultvars D (restricted a b x s)).1 = (defaultvars D s).1 ∧
    (∀ t, defaultvars D s = (.ok (), t) → ∃ t', defaultvars D (restricted a b x s) = (.ok (), t') ∧ jobOf H t' = jobOf H t ∧
      t'.baseline = t.baseline ∧ t'.cres = t.cres ∧ t'.pf = t.pf ∧ t'.errorMethod = t.errorMethod ∧ t'.initialPeaks = t.initialPeaks) := by
  obtain ⟨lo, hi, lo', hi', z0, z1, r, β, hl, hz0, hz1, g1, g2, g1', g3, hd, hd'⟩ := both_default (D := D) hr hg hc hf h0 h1 hab hne
  have hr' := restricted_ready hr a b
  rw [hd, hd']
  cases r with
  | error e => exact ⟨rfl, fun t h => by simp [andThen] at h⟩
  | ok u =>
    refine ⟨rfl, fun t h => ?_⟩
    simp only [andThen, Prod.mk.injEq, true_and] at h
    subst h
    refine ⟨_, rfl, ?_, rfl, rfl, rfl, rfl, rfl⟩
    unfold jobOf defRest
    simp only [hr.hasx, hr.hasy, hr'.hasx, hr'.hasy]
    rw [show (restricted a b x s).cres = s.cres from rfl, show (restricted a b x s).pf = s.pf from rfl, hc, hf,
      show (restricted a b x s).errorMethod = s.errorMethod from rfl, show (restricted a b x s).initialPeaks = s.initialPeaks from rfl]
    cases β with
    | none => rfl
    | some v =>
      cases v with
      | func g => rfl
      | inst i => simp only [g1, g1', Int.toNat_natCast, g2 x rfl, g2 y hr.leny, g2 _ hl, g3 x rfl, g3 y hr.leny, g3 _ hl]

variable {W : World K} {H : Heap K}

/-! ## Theorems -/

/-- **C109.** With `cres`, peak functions and effective uncertainties given, `extract_single` with a range finds exactly what it finds in the data
in that range. -/
theorem c109_extract (n depth : ℕ) {s : PX K} {x y : List K} (hr : Ready s x y) (hg : Given s) {c : K} (hc : s.cres = some c) {f : ℕ} (hf : s.pf = some f)
    {x0 x1 : K} (h0 : x.head? = some x0) (h1 : x.getLast? = some x1) {a b : K} (hab : rangeOf s x0 x1 = (a, b)) (hne : keep a b x x ≠ []) :
    extractSingle W H D n depth (restricted a b x s) = extractSingle W H D n depth s := by
  cases n with
  | zero => rfl
  | succ n =>
    obtain ⟨k1, k2⟩ := same_job (D := D) (H := H) hr hg hc hf h0 h1 hab hne
    unfold extractSingle
    generalize hds : defaultvars D s = ds at k1 k2
    generalize hds' : defaultvars D (restricted a b x s) = ds' at k1 k2
    obtain ⟨u, t⟩ := ds
    obtain ⟨u', t'⟩ := ds'
    simp only at k1
    subst k1
    cases u' with
    | error e => rfl
    | ok u =>
      obtain ⟨t'', q1, q2, q3, q4, q5, q6, q7⟩ := k2 t rfl
      simp only [Prod.mk.injEq, true_and] at q1
      subst q1
      simp only [q2]
      have hss : ∀ r y e, subSearch D t' r y e = subSearch D t r y e := by
        intro r y e
        unfold subSearch
        rw [q3, q4, q5, q6]
      simp only [hss]

/-- **C109.** And `fit_single` fits the same: the same result or exception, the same effect on the objects. -/
theorem c109_fit (ex : Option (Cluster K)) {s : PX K} {x y : List K} (hr : Ready s x y) (hg : Given s) {c : K} (hc : s.cres = some c) {f : ℕ} (hf : s.pf = some f)
    {x0 x1 : K} (h0 : x.head? = some x0) (h1 : x.getLast? = some x1) {a b : K} (hab : rangeOf s x0 x1 = (a, b)) (hne : keep a b x x ≠ []) :
    (fitSingle W D ⟨restricted a b x s, H, ex⟩).1 = (fitSingle W D ⟨s, H, ex⟩).1 ∧
    (fitSingle W D ⟨restricted a b x s, H, ex⟩).2.extracted = (fitSingle W D ⟨s, H, ex⟩).2.extracted ∧
    (fitSingle W D ⟨restricted a b x s, H, ex⟩).2.heap = (fitSingle W D ⟨s, H, ex⟩).2.heap := by
  obtain ⟨k1, k2⟩ := same_job (D := D) (H := H) hr hg hc hf h0 h1 hab hne
  unfold fitSingle
  generalize hds : defaultvars D s = ds at k1 k2
  generalize hds' : defaultvars D (restricted a b x s) = ds' at k1 k2
  obtain ⟨u, t⟩ := ds
  obtain ⟨u', t'⟩ := ds'
  simp only at k1
  subst k1
  cases u' with
  | error e => exact ⟨rfl, rfl, rfl⟩
  | ok u =>
    obtain ⟨t'', q1, q2, q3, q4, q5, q6, q7⟩ := k2 t rfl
    simp only [Prod.mk.injEq, true_and] at q1
    subst q1
    simp only [q2, q3, q7]
    split
    · split
      · exact ⟨rfl, rfl, rfl⟩
      · split
        · exact ⟨rfl, rfl, rfl⟩
        · exact ⟨rfl, rfl, rfl⟩
    · exact ⟨rfl, rfl, rfl⟩
    · exact ⟨rfl, rfl, rfl⟩

/-- The same for a `PDFPeakExtraction`. -/
def restrictedPdf (a b : K) (x : List K) (o : PObj K) : PObj K := { o with vars := { o.vars with base := restricted a b x o.vars.base } }

variable {S : Sampler K}

/-- What the two objects are completed to. -/
theorem same_par {s : PX K} {x y : List K} (hr : Ready s x y) (hg : Given s) {c : K} (hc : s.cres = some c) {f : ℕ} (hf : s.pf = some f)
    {x0 x1 : K} (h0 : x.head? = some x0) (h1 : x.getLast? = some x1) {a b : K} (hab : rangeOf s x0 x1 = (a, b)) (hne : keep a b x x ≠ [])
    {t t' : PPX K} (ht : defaultvars D s = (.ok (), t.base)) (ht' : defaultvars D (restricted a b x s) = (.ok (), t'.base))
    (e1 : t'.qmax = t.qmax) (e2 : t'.nyquist = t.nyquist) (e3 : t'.scale = t.scale) (e4 : t'.supersample = t.supersample) :
    (∃ e, complete t = .error e ∧ complete t' = .error e) ∨
    ∃ P P' sl sl', complete t = .ok P ∧ complete t' = .ok P' ∧ getrangeslice P.x P.a P.b = .ok sl ∧ getrangeslice P'.x P'.a P'.b = .ok sl' ∧
      (∀ f, rawGrid P' sl' f = rawGrid P sl f) ∧ (∀ g, innerVars D P' g = innerVars D P g) ∧ P'.q = P.q ∧ P'.nyquist = P.nyquist ∧ some P.q = t.qmax ∧ some P.nyquist = t.nyquist := by
  obtain ⟨lo, hi, lo', hi', z0, z1, r, β, hl, hz0, hz1, g1, g2, g1', g3, hd, hd'⟩ := both_default (D := D) hr hg hc hf h0 h1 hab hne
  have hr' := restricted_ready hr a b
  rw [hd] at ht
  rw [hd'] at ht'
  cases r with
  | error e => simp [andThen] at ht
  | ok u =>
    simp only [andThen, Prod.mk.injEq, true_and] at ht ht'
    unfold complete
    rw [← ht, ← ht', e1, e2, e3, e4]
    unfold defRest
    simp only [hr.hasx, hr.hasy, hr'.hasx, hr'.hasy]
    rw [show (restricted a b x s).cres = s.cres from rfl, show (restricted a b x s).pf = s.pf from rfl, hc, hf,
      show (restricted a b x s).errorMethod = s.errorMethod from rfl, show (restricted a b x s).initialPeaks = s.initialPeaks from rfl]
    simp only [need, needRng, need1, h0, h1, hz0, hz1, bind, Except.bind]
    cases t.qmax with
    | none => exact Or.inl ⟨_, rfl, rfl⟩
    | some q =>
    cases t.nyquist with
    | none => exact Or.inl ⟨_, rfl, rfl⟩
    | some ny =>
    cases t.scale with
    | none => exact Or.inl ⟨_, rfl, rfl⟩
    | some sc =>
    cases t.supersample with
    | none => exact Or.inl ⟨_, rfl, rfl⟩
    | some ss =>
    cases β with
    | none => exact Or.inl ⟨_, rfl, rfl⟩
    | some v =>
      cases v with
      | func g => exact Or.inl ⟨_, rfl, rfl⟩
      | inst i =>
        refine Or.inr ⟨_, _, (lo, hi), (lo', hi'), rfl, rfl, g1, g1', ?_, ?_, rfl, rfl, rfl, rfl⟩
        · intro f
          unfold rawGrid
          simp only [Int.toNat_natCast, g2 x rfl, g2 y hr.leny, g2 _ hl, g3 x rfl, g3 y hr.leny, g3 _ hl]
        · intro g
          unfold innerVars
          rfl

theorem range_cres (s : PX K) (c : Option K) (f : Option ℕ) (x0 x1 : K) : rangeOf { s with cres := c, pf := f } x0 x1 = rangeOf s x0 x1 := rfl

theorem pdf_par {o : PObj K} {x y : List K} (hr : Ready o.vars.base x y) (hg : Given o.vars.base) {c : K} (hc : o.vars.base.cres = some c)
    {x0 x1 : K} (h0 : x.head? = some x0) (h1 : x.getLast? = some x1) {a b : K} (hab : rangeOf o.vars.base x0 x1 = (a, b)) (hne : keep a b x x ≠ []) :
    (∃ e s s', pdefaultvars S.pi D o.vars = (.error e, s) ∧ pdefaultvars S.pi D (restrictedPdf a b x o).vars = (.error e, s')) ∨
    ∃ t t', pdefaultvars S.pi D o.vars = (.ok (), t) ∧ pdefaultvars S.pi D (restrictedPdf a b x o).vars = (.ok (), t') ∧
      t.qmax = some (chooseQmax o.vars) ∧ t.nyquist = some (o.vars.nyquist.getD (decide (0 < chooseQmax o.vars))) ∧
      ((∃ e, complete t = .error e ∧ complete t' = .error e) ∨
        ∃ P P' sl sl', complete t = .ok P ∧ complete t' = .ok P' ∧ getrangeslice P.x P.a P.b = .ok sl ∧ getrangeslice P'.x P'.a P'.b = .ok sl' ∧
          (∀ f, rawGrid P' sl' f = rawGrid P sl f) ∧ (∀ g, innerVars D P' g = innerVars D P g) ∧ P'.q = P.q ∧ P'.nyquist = P.nyquist ∧ some P.q = t.qmax ∧ some P.nyquist = t.nyquist) := by
  have hrb : Ready ({ o.vars.base with cres := chooseCres S.pi (chooseQmax o.vars) o.vars.base.cres, pf := some (o.vars.base.pf.getD (D.gaussianOverR (7 / 10))) } : PX K) x y :=
    ⟨hr.hasx, hr.hasy, hr.hasdy, hr.heff, hr.inc, hr.leny⟩
  have hcb : ({ o.vars.base with cres := chooseCres S.pi (chooseQmax o.vars) o.vars.base.cres, pf := some (o.vars.base.pf.getD (D.gaussianOverR (7 / 10))) } : PX K).cres = some c := by
    simp only [hc]; rfl
  obtain ⟨k1, k2⟩ := same_job (D := D) (H := o.heap) hrb hg hcb rfl h0 h1 hab hne
  have key := @same_par K _ _ _ D _ x y hrb hg c hcb _ rfl x0 x1 h0 h1 a b hab hne
  unfold pdefaultvars
  simp only
  generalize hds : defaultvars D { o.vars.base with cres := chooseCres S.pi (chooseQmax o.vars) o.vars.base.cres, pf := some (o.vars.base.pf.getD (D.gaussianOverR (7 / 10))) } = ds at k1 k2 key
  have hre : defaultvars D { (restrictedPdf a b x o).vars.base with cres := chooseCres S.pi (chooseQmax (restrictedPdf a b x o).vars) (restrictedPdf a b x o).vars.base.cres, pf := some ((restrictedPdf a b x o).vars.base.pf.getD (D.gaussianOverR (7 / 10))) } =
    defaultvars D (restricted a b x { o.vars.base with cres := chooseCres S.pi (chooseQmax o.vars) o.vars.base.cres, pf := some (o.vars.base.pf.getD (D.gaussianOverR (7 / 10))) }) := rfl
  rw [hre]
  generalize hds' : defaultvars D (restricted a b x { o.vars.base with cres := chooseCres S.pi (chooseQmax o.vars) o.vars.base.cres, pf := some (o.vars.base.pf.getD (D.gaussianOverR (7 / 10))) }) = ds' at k1 k2 key
  obtain ⟨u, t⟩ := ds
  obtain ⟨u', t'⟩ := ds'
  simp only at k1
  subst k1
  cases u' with
  | error e => exact Or.inl ⟨e, _, _, rfl, rfl⟩
  | ok u =>
    refine Or.inr ⟨_, _, rfl, rfl, rfl, rfl, ?_⟩
    exact key rfl rfl rfl rfl rfl rfl

/-- **C109.** `PDFPeakExtraction.extract` without termination effects (qmax 0): a range is a restriction of the data. -/
theorem c109_pdf_extract (n : ℕ) {o : PObj K} {x y : List K} (hr : Ready o.vars.base x y) (hg : Given o.vars.base) {c : K} (hc : o.vars.base.cres = some c)
    {x0 x1 : K} (h0 : x.head? = some x0) (h1 : x.getLast? = some x1) {a b : K} (hab : rangeOf o.vars.base x0 x1 = (a, b)) (hne : keep a b x x ≠ [])
    (hq : chooseQmax o.vars = 0) :
    (extract W S D n (restrictedPdf a b x o)).map (fun r => (r.1, r.2.extracted)) = (extract W S D n o).map (fun r => (r.1, r.2.extracted)) := by
  unfold PdfExtract.extract
  rcases pdf_par (D := D) (S := S) hr hg hc h0 h1 hab hne with ⟨e, s, s', p1, p2⟩ | ⟨t, t', p1, p2, q1, q2, h⟩
  · rw [p1, p2]; rfl
  · rw [p1, p2]
    simp only [show (restrictedPdf a b x o).heap = o.heap from rfl]
    have hx : extracted W o.heap S D t' n = extracted W o.heap S D t n := by
      unfold extracted begun
      rcases h with ⟨e, c1, c2⟩ | ⟨P, P', sl, sl', c1, c2, s1, s2, g1, g2, w1, w2, w3, w4⟩
      · rw [c1, c2]; simp only [bind, Except.bind]
      · have hP : P.q = 0 := by rw [q1, hq] at w3; simpa using w3
        have hP' : P'.q = 0 := by rw [w1, hP]
        rw [c1, c2]
        simp only [bind, Except.bind, firstGrid, s1, s2, hP, hP', if_true, g1, g2]
        cases rawGrid P sl 1 with
        | error e => simp only
        | ok g =>
          simp only
          cases innerVars D P g with
          | error e => simp only
          | ok i =>
            simp only
            cases extractSingle W o.heap D 3 1 i with
            | error e => simp only
            | ok d =>
              simp only [pure, Except.pure]
              unfold refine
              rw [if_neg (by rw [hP']; exact lt_irrefl _), if_neg (by rw [hP]; exact lt_irrefl _)]
    rw [hx, Option.map_map, Option.map_map]
    congr 1
    funext r
    cases r <;> rfl

/-- **C109.** `PDFPeakExtraction.fit` with qmax 0 or without Nyquist sampling: likewise. -/
theorem c109_pdf_fit {o : PObj K} {x y : List K} (hr : Ready o.vars.base x y) (hg : Given o.vars.base) {c : K} (hc : o.vars.base.cres = some c)
    {x0 x1 : K} (h0 : x.head? = some x0) (h1 : x.getLast? = some x1) {a b : K} (hab : rangeOf o.vars.base x0 x1 = (a, b)) (hne : keep a b x x ≠ [])
    (hq : chooseQmax o.vars = 0 ∨ o.vars.nyquist = some false) :
    (PdfExtract.fit W S D (restrictedPdf a b x o)).1 = (PdfExtract.fit W S D o).1 ∧
    (PdfExtract.fit W S D (restrictedPdf a b x o)).2.extracted = (PdfExtract.fit W S D o).2.extracted ∧
    (PdfExtract.fit W S D (restrictedPdf a b x o)).2.heap = (PdfExtract.fit W S D o).2.heap := by
  unfold PdfExtract.fit
  rcases pdf_par (D := D) (S := S) hr hg hc h0 h1 hab hne with ⟨e, s, s', p1, p2⟩ | ⟨t, t', p1, p2, q1, q2, h⟩
  · rw [p1, p2]; exact ⟨rfl, rfl, rfl⟩
  · rw [p1, p2]
    simp only [show (restrictedPdf a b x o).heap = o.heap from rfl]
    have hx : fitVars S D t' = fitVars S D t := by
      unfold fitVars
      rcases h with ⟨e, c1, c2⟩ | ⟨P, P', sl, sl', c1, c2, s1, s2, g1, g2, w1, w2, w3, w4⟩
      · rw [c1, c2]; simp only [bind, Except.bind]
      · have hP : P.q = 0 ∨ P.nyquist = false := by
          rw [q1] at w3
          rw [q2] at w4
          simp only [Option.some.injEq] at w3 w4
          rcases hq with hq | hq
          · left; rw [w3, hq]
          · right; rw [w4, hq]; rfl
        rw [c1, c2]
        simp only [bind, Except.bind, fitGrid, s1, s2, w1, w2, if_pos hP, g1, g2]
    rw [hx]
    cases fitVars S D t with
    | error e => exact ⟨rfl, rfl, rfl⟩
    | ok i =>
      simp only
      obtain ⟨r, d⟩ := fitSingle W D ⟨i, o.heap, none⟩
      cases r <;> exact ⟨rfl, rfl, rfl⟩

end

/-! ## Instances -/

/-- The range [1, 7/2] of the data at 0..6. -/
def rangeVars : PX ℚ := dotVars none (some (some 1, some (7/2)))

theorem rangeVars_ready : Ready rangeVars [0, 1, 2, 3, 4, 5, 6] [0, 3, 5, 0, 2, 0, 1] :=
  ⟨rfl, rfl, ⟨_, rfl, rfl⟩, by intro e h; simp [rangeVars, dotVars] at h, by decide +kernel, rfl⟩

theorem rangeVars_given : Given rangeVars := by
  right; right
  refine ⟨rfl, ?_⟩
  intro dy h v hv
  simp only [rangeVars, dotVars, Option.some.injEq] at h
  subst h
  simp only [List.mem_cons, List.not_mem_nil, or_false, or_self] at hv
  subst hv
  norm_num

/-- The hypotheses hold, the data in the range are those at 1, 2, 3, and two of the four peaks are found. -/
example : extractSingle (codeWorld (spots .aic)) dotHeap dotDef 3 1 (restricted 1 (7/2) [0, 1, 2, 3, 4, 5, 6] rangeVars) =
      extractSingle (codeWorld (spots .aic)) dotHeap dotDef 3 1 rangeVars ∧
    (restricted 1 (7/2) [0, 1, 2, 3, 4, 5, 6] rangeVars).x = some [1, 2, 3] ∧
    (restricted 1 (7/2) [0, 1, 2, 3, 4, 5, 6] rangeVars).y = some [3, 5, 0] ∧
    shown (extractSingle (codeWorld (spots .aic)) dotHeap dotDef 3 1 rangeVars) = some [(7, [1, 3]), (7, [2, 5])] ∧
    shown (extractSingle (codeWorld (spots .aic)) dotHeap dotDef 3 1 (dotVars none none)) = some [(7, [1, 3]), (7, [2, 5]), (7, [4, 2]), (7, [6, 1])] :=
  ⟨c109_extract 3 1 rangeVars_ready rangeVars_given rfl rfl rfl rfl rfl (by decide +kernel), by decide +kernel, by decide +kernel,
    by decide +kernel, by decide +kernel⟩

example := c109_fit (W := codeWorld (spots .aic)) (D := dotDef) (H := dotHeap) none rangeVars_ready rangeVars_given rfl rfl rfl rfl rfl (by decide +kernel)

/-- The same data in a `PDFPeakExtraction` without termination effects. -/
def rangePdf : PObj ℚ := ⟨{ base := rangeVars, qmax := some 0, supersample := some 1 }, dotHeap, none, none⟩

example : (extract (codeWorld (spots .aic)) linSampler dotDef 3 (restrictedPdf 1 (7/2) [0, 1, 2, 3, 4, 5, 6] rangePdf)).map (fun r => (r.1, r.2.extracted)) =
      (extract (codeWorld (spots .aic)) linSampler dotDef 3 rangePdf).map (fun r => (r.1, r.2.extracted)) ∧
    PdfExtract.seen (extract (codeWorld (spots .aic)) linSampler dotDef 3 rangePdf) = some ([(7, [1, 3]), (7, [2, 5])], [1, 2, 3]) :=
  ⟨c109_pdf_extract 3 rangeVars_ready rangeVars_given rfl rfl rfl rfl (by decide +kernel) rfl, by decide +kernel⟩

example := c109_pdf_fit (W := codeWorld (spots .aic)) (S := linSampler) (D := dotDef) (o := rangePdf) rangeVars_ready rangeVars_given rfl rfl rfl rfl (by decide +kernel) (Or.inl rfl)

/-- A range that begins between two points, with qmax 3. -/
def betweenPdf : PObj ℚ := ⟨{ base := dotVars none (some (some (1/2), some 5)), qmax := some 3, supersample := some 1 }, dotHeap, none, none⟩

/-- **Finding.** With qmax > 0 `PDFPeakExtraction.extract` resamples all the data from the lower bound of the range on: the bound itself is a point of
the grid, with a value made from data outside the range, and what is found is not what is found in the data of the range. -/
theorem c109_resampled : Verif.Parts.PdfExtract.seen (extract (codeWorld (spots .aic)) linSampler dotDef 3 betweenPdf) =
      some ([(7, [3/2, 4])], [1/2, 3/2, 5/2, 7/2, 9/2]) ∧
    Verif.Parts.PdfExtract.seen (extract (codeWorld (spots .aic)) linSampler dotDef 3 (restrictedPdf (1/2) 5 [0, 1, 2, 3, 4, 5, 6] betweenPdf)) =
      some ([(107, [1, 3])], [1, 2, 3, 4]) := by
  constructor <;> decide +kernel

end Verif.Parts.Order
