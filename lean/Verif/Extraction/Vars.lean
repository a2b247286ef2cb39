import Verif.Extraction.Range
import Mathlib.Tactic.Ring
import Mathlib.Algebra.Order.Ring.Rat

/-!
# C61–C63: data and extraction variables
-/

namespace Verif.Extraction

open Verif.Py

set_option linter.unusedSectionVars false

variable {K : Type}

/-! ### C61: setdata -/

/-- **C61.** `setdata` succeeds exactly when all given sequences have the same length; then the object holds
them (zeros for missing uncertainties), all of one length, and no extraction variable has changed. -/
theorem c61_setdata [Zero K] (s : PX K) (x y : List K) (dx dy : Option (List K)) :
    ((setdata s x y dx dy).1 = .ok () ↔ x.length = y.length ∧ (∀ l, dx = some l → l.length = x.length) ∧
      (∀ l, dy = some l → l.length = x.length)) ∧
    ((setdata s x y dx dy).1 = .ok () → ∃ dx' dy', (setdata s x y dx dy).2 =
        { s with x := some x, y := some y, dx := some dx', dy := some dy' } ∧
      dx'.length = x.length ∧ dy'.length = x.length ∧
      (∀ l, dx = some l → dx' = l) ∧ (dx = none → ∀ v ∈ dx', v = 0) ∧
      (∀ l, dy = some l → dy' = l) ∧ (dy = none → ∀ v ∈ dy', v = 0)) ∧
    (x.length ≠ y.length → (setdata s x y dx dy).2 = s) ∧
    ((setdata s x y dx dy).1 ≠ .ok () → (setdata s x y dx dy).1 = .error .value) := by
  unfold setdata
  by_cases h : x.length = y.length
  · rw [if_neg (by simpa using h)]
    simp only
    by_cases h2 : x.length ≠ (dx.getD (x.map (fun _ => 0))).length ∨
        x.length ≠ (dy.getD (x.map (fun _ => 0))).length
    · rw [if_pos h2]
      refine ⟨⟨fun h' => by simp at h', ?_⟩, fun h' => by simp at h', fun h' => absurd h h', fun _ => rfl⟩
      rintro ⟨-, h3, h4⟩
      exfalso
      cases dx with
      | none =>
        cases dy with
        | none => simp at h2
        | some l => have := h4 l rfl; simp at h2; omega
      | some m =>
        have hm := h3 m rfl
        cases dy with
        | none => simp at h2; omega
        | some l => have := h4 l rfl; simp at h2; omega
    · rw [if_neg h2]
      rw [not_or, not_not, not_not] at h2
      refine ⟨⟨fun _ => ⟨h, ?_, ?_⟩, fun _ => rfl⟩, fun _ => ⟨_, _, rfl, h2.1.symm, h2.2.symm, ?_, ?_, ?_, ?_⟩,
        fun h' => absurd h h', fun h' => absurd rfl h'⟩
      · rintro l rfl; exact h2.1.symm
      · rintro l rfl; exact h2.2.symm
      · rintro l rfl; rfl
      · rintro rfl v hv
        simp at hv; exact hv.2
      · rintro l rfl; rfl
      · rintro rfl v hv
        simp at hv; exact hv.2
  · rw [if_pos (by simpa using h)]
    exact ⟨⟨fun h' => by simp at h', fun h' => absurd h'.1 h⟩, fun h' => by simp at h', fun _ => rfl, fun _ => rfl⟩

/-- Instances: accepted and refused data. -/
example : (setdata ({} : PX ℤ) [1, 2] [3, 4] none (some [1, 1])).1 = .ok () ∧
    (setdata ({} : PX ℤ) [1, 2] [3, 4] none (some [1])).1 = .error .value ∧
    (setdata ({} : PX ℤ) [1, 2] [3] none none).1 = .error .value := by decide

/-- **C61, finding.** When the uncertainties have the wrong length the call raises, but the old data have already
been replaced and the object is left with sequences of different lengths. -/
theorem c61_failed_call_replaces_data : ∃ (s : PX ℤ) (x y dy : List ℤ),
    (setdata s x y none (some dy)).1 = .error .value ∧ s.x ≠ (setdata s x y none (some dy)).2.x ∧
    (setdata s x y none (some dy)).2.x = some [1, 2] ∧ (setdata s x y none (some dy)).2.dy = some [1] :=
  ⟨{ x := some [0], y := some [0], dx := some [0], dy := some [0] }, [1, 2], [3, 4], [1], by decide⟩

/-! ### C62: setvars -/

/-- The last value given for a variable, if any. -/
def lastOf {V : Type} (f : Kw K → Option V) (kws : List (Kw K)) : Option V := (kws.filterMap f).getLast?

/-- Selectors of the keyword arguments by name. -/
def kEff : Kw K → Option (EffDy K) | .effective_dy v => some v | _ => none
/-- See `kEff`. -/
def kRng : Kw K → Option (Option (Option K × Option K)) | .rng v => some v | _ => none
/-- See `kEff`. -/
def kPf : Kw K → Option (Option ℕ) | .pf v => some v | _ => none
/-- See `kEff`. -/
def kIp : Kw K → Option (Option ℕ) | .initial_peaks v => some v | _ => none
/-- See `kEff`. -/
def kBase : Kw K → Option (Option Base) | .baseline v => some v | _ => none
/-- See `kEff`. -/
def kCres : Kw K → Option (Option K) | .cres v => some v | _ => none
/-- See `kEff`. -/
def kErr : Kw K → Option (Option ℕ) | .error_method v => some v | _ => none

/-- The object with exactly the named variables replaced. -/
def assigned (kws : List (Kw K)) (s : PX K) : PX K :=
  { s with
    effdy := (lastOf kEff kws).getD s.effdy
    rng := (lastOf kRng kws).getD s.rng
    pf := (lastOf kPf kws).getD s.pf
    initialPeaks := (lastOf kIp kws).getD s.initialPeaks
    baseline := (lastOf kBase kws).getD s.baseline
    cres := (lastOf kCres kws).getD s.cres
    errorMethod := (lastOf kErr kws).getD s.errorMethod }

theorem lastOf_cons {V : Type} (f : Kw K → Option V) (k : Kw K) (ks : List (Kw K)) (d : V) :
    (lastOf f (k :: ks)).getD d = (lastOf f ks).getD ((f k).getD d) := by
  unfold lastOf
  rw [List.filterMap_cons]
  cases h : f k with
  | none => rfl
  | some v =>
    simp only [Option.getD_some]
    cases h2 : ks.filterMap f with
    | nil => rfl
    | cons a l => rw [List.getLast?_cons_cons]; rw [List.getLast?_eq_some_getLast (List.cons_ne_nil a l)]; rfl

theorem setLoop_spec (kws : List (Kw K)) (s : PX K) :
    ((∀ k ∈ kws, ∀ n, k ≠ .other n) → setLoop kws s = (.ok (), assigned kws s)) ∧
    (∀ pre n post, kws = pre ++ .other n :: post → (∀ k ∈ pre, ∀ n, k ≠ .other n) →
      setLoop kws s = (.error .value, assigned pre s)) := by
  induction kws generalizing s with
  | nil =>
    refine ⟨fun _ => rfl, fun pre n post h => by simp at h⟩
  | cons k ks ih =>
    have key : ∀ (ks : List (Kw K)) s', setOne s k = some s' → assigned ks s' = assigned (k :: ks) s := by
      intro ks s' h
      unfold assigned
      simp only [lastOf_cons]
      cases k <;> simp only [setOne, Option.some.injEq, reduceCtorEq] at h <;> subst h <;> rfl
    constructor
    · intro h
      obtain ⟨s', hs'⟩ : ∃ s', setOne s k = some s' := by
        cases k with
        | other n => exact absurd rfl (h _ List.mem_cons_self n)
        | _ => exact ⟨_, rfl⟩
      unfold setLoop
      rw [hs']
      simp only
      rw [(ih s').1 (fun k' hk' => h k' (List.mem_cons_of_mem _ hk')), key _ _ hs']
    · intro pre n post h hpre
      match pre, h, hpre with
      | [], h, hpre =>
        rw [List.nil_append] at h
        obtain ⟨rfl, rfl⟩ := List.cons.inj h
        rfl
      | a :: pre, h, hpre =>
        rw [List.cons_append] at h
        obtain ⟨rfl, h⟩ := List.cons.inj h
        replace h := ‹ks = pre ++ _›
        obtain ⟨s', hs'⟩ : ∃ s', setOne s k = some s' := by
          cases k with
          | other m => exact absurd rfl (hpre _ List.mem_cons_self m)
          | _ => exact ⟨_, rfl⟩
        unfold setLoop
        rw [hs']
        simp only
        rw [(ih s').2 pre n post h (fun k' hk' => hpre k' (List.mem_cons_of_mem _ hk')), key _ _ hs']

section

variable [Field K] [LinearOrder K]

/-- **C62.** `setvars` with known names only stores exactly the given values and then fills in the defaults.
With an unknown name it raises ValueError; exactly the variables named before it have then been changed (a failed
call is not without effect). -/
theorem c62_setvars (D : Defaults K) (s : PX K) (kws : List (Kw K)) :
    ((∀ k ∈ kws, ∀ n, k ≠ .other n) → setvars D s kws = defaultvars D (assigned kws s)) ∧
    (∀ pre n post, kws = pre ++ .other n :: post → (∀ k ∈ pre, ∀ n, k ≠ .other n) →
      setvars D s kws = (.error .value, assigned pre s)) := by
  constructor
  · intro h
    unfold setvars
    rw [(setLoop_spec kws s).1 h]
    rfl
  · intro pre n post h hpre
    unfold setvars
    rw [(setLoop_spec kws s).2 pre n post h hpre]
    rfl

end

/-- Example defaults: no estimation. -/
def exD : Defaults ℚ where
  estimate := fun _ _ _ => .error .notImplemented
  gaussianOverR := fun _ => 7
  zeroBaseline := 1
  aic := 2
  noPeaks := 3

/-- Instance: `setvars(cres=2, bogus=…)` raises and leaves `cres = 2`. -/
example : setvars exD ({} : PX ℚ) [.cres (some 2), .other "bogus", .pf (some 4)] =
    (.error .value, { cres := some 2 }) := by decide +kernel

/-! ### C63: defaults -/

section

variable [Field K] [LinearOrder K] [IsStrictOrderedRing K]

/-- The data of a usable object: same lengths, at least two points, not all at the same place. -/
structure HasData (s : PX K) (x y dy : List K) (x0 x1 : K) : Prop where
  hx : s.x = some x
  hy : s.y = some y
  hdy : s.dy = some dy
  leny : y.length = x.length
  lendy : dy.length = x.length
  first : x.head? = some x0
  last : x.getLast? = some x1
  wide : x0 < x1

/-- `effective_dy` after the defaults: kept if it is an array or a scalar that is not positive, else an array
of this value, else the uncertainties of the data if they are all positive, else 5% of the range of `y`. -/
def DefaultEff (s : PX K) (x y dy : List K) (e : EffDy K) : Prop :=
  match s.effdy with
  | .array _ => e = s.effdy
  | .scalar v => if 0 < v then e = .array (List.replicate x.length v) else e = s.effdy
  | .unset => ((∀ v ∈ dy, 0 < v) → e = .array dy) ∧
      ((∃ v ∈ dy, ¬ 0 < v) → ∃ a b, a ∈ y ∧ b ∈ y ∧ (∀ v ∈ y, b ≤ v ∧ v ≤ a) ∧
        e = .array (List.replicate x.length (5 / 100 * (a - b))))

theorem foldl_max_spec (l : List K) (a : K) :
    (∀ v ∈ a :: l, v ≤ l.foldl max a) ∧ l.foldl max a ∈ a :: l := by
  induction l generalizing a with
  | nil => simp
  | cons b l ih =>
    obtain ⟨h1, h2⟩ := ih (max a b)
    have h1' := h1 (max a b) List.mem_cons_self
    constructor
    · intro v hv
      rw [List.foldl_cons]
      rcases List.mem_cons.1 hv with rfl | hv
      · exact (le_max_left _ _).trans h1'
      · rcases List.mem_cons.1 hv with rfl | hv
        · exact (le_max_right _ _).trans h1'
        · exact h1 v (List.mem_cons_of_mem _ hv)
    · rw [List.foldl_cons]
      rcases List.mem_cons.1 h2 with h | h
      · rw [h]
        rcases max_choice a b with h' | h' <;> rw [h'] <;> simp
      · exact List.mem_cons_of_mem _ (List.mem_cons_of_mem _ h)

theorem foldl_min_spec (l : List K) (a : K) :
    (∀ v ∈ a :: l, l.foldl min a ≤ v) ∧ l.foldl min a ∈ a :: l := by
  induction l generalizing a with
  | nil => simp
  | cons b l ih =>
    obtain ⟨h1, h2⟩ := ih (min a b)
    have h1' := h1 (min a b) List.mem_cons_self
    constructor
    · intro v hv
      rw [List.foldl_cons]
      rcases List.mem_cons.1 hv with rfl | hv
      · exact h1'.trans (min_le_left _ _)
      · rcases List.mem_cons.1 hv with rfl | hv
        · exact h1'.trans (min_le_right _ _)
        · exact h1 v (List.mem_cons_of_mem _ hv)
    · rw [List.foldl_cons]
      rcases List.mem_cons.1 h2 with h | h
      · rw [h]
        rcases min_choice a b with h' | h' <;> rw [h'] <;> simp
      · exact List.mem_cons_of_mem _ (List.mem_cons_of_mem _ h)

theorem map_const {α β : Type} (l : List α) (v : β) : l.map (fun _ => v) = List.replicate l.length v := by
  induction l with
  | nil => rfl
  | cons a l ih => simp [ih, List.replicate_succ]

/-- The array that `defEffdy` stores. -/
def effOf (e : EffDy K) (x y dy : List K) : EffDy K :=
  match e with
  | .array l => .array l
  | .scalar v => if 0 < v then .array (x.map (fun _ => v)) else .scalar v
  | .unset =>
    if dy.all (fun v => decide (0 < v)) then .array dy
    else match spread y with
      | .error _ => .unset
      | .ok w => .array (x.map (fun _ => 5 / 100 * w))

theorem defEffdy_ok (s : PX K) (x y dy : List K) (hx : s.x = some x) (hy : s.y = some y) (hdy : s.dy = some dy)
    (hne : y ≠ []) : defEffdy s = (.ok (), { s with effdy := effOf s.effdy x y dy }) := by
  obtain ⟨sx, sy, sdx, sdy, seff, srng, spf, sip, sbl, scr, sem⟩ := s
  simp only at hx hy hdy
  subst hx hy hdy
  unfold defEffdy effOf
  cases seff with
  | unset =>
    simp only
    by_cases ha : dy.all (fun v => decide (0 < v)) = true
    · rw [if_pos ha, if_pos ha]
    · rw [if_neg ha, if_neg ha]
      obtain ⟨b, l, rfl⟩ := List.exists_cons_of_ne_nil hne
      rfl
  | scalar v =>
    simp only
    by_cases hv : 0 < v
    · rw [if_pos hv, if_pos hv]
    · rw [if_neg hv, if_neg hv]
  | array l => rfl

theorem effOf_spec (s : PX K) (x y dy : List K) (hne : y ≠ []) :
    DefaultEff s x y dy (effOf s.effdy x y dy) := by
  unfold effOf DefaultEff
  cases s.effdy with
  | unset =>
    simp only
    by_cases ha : dy.all (fun v => decide (0 < v)) = true
    · rw [if_pos ha]
      refine ⟨fun _ => rfl, ?_⟩
      rintro ⟨v, hv, hn⟩
      rw [List.all_eq_true] at ha
      exact absurd (by simpa using ha v hv) hn
    · rw [if_neg ha]
      obtain ⟨b, l, rfl⟩ := List.exists_cons_of_ne_nil hne
      simp only [spread]
      refine ⟨?_, ?_⟩
      · intro h'
        exact absurd (List.all_eq_true.2 (fun v hv => by simpa using h' v hv)) ha
      · intro _
        obtain ⟨m1, m2⟩ := foldl_max_spec l b
        obtain ⟨n1, n2⟩ := foldl_min_spec l b
        exact ⟨_, _, m2, n2, fun v hv => ⟨n1 v hv, m1 v hv⟩, by rw [map_const]⟩
  | scalar v =>
    simp only
    by_cases hv : 0 < v
    · rw [if_pos hv, if_pos hv, map_const]
    · rw [if_neg hv, if_neg hv]
  | array l => rfl

theorem HasData.ne {s : PX K} {x y dy : List K} {x0 x1 : K} (h : HasData s x y dy x0 x1) : y ≠ [] := by
  intro h0
  have hl := h.leny
  rw [h0] at hl
  have := h.first
  rw [List.length_eq_zero_iff.1 hl.symm] at this
  simp at this

/-- The steps before the baseline. -/
theorem steps4 (D : Defaults K) (s : PX K) (x y dy : List K) (x0 x1 : K) (h : HasData s x y dy x0 x1) :
    andThen (andThen (andThen (defCres s) defEffdy) (defPf D)) defRng = (.ok (),
      { s with
        cres := some (s.cres.getD (4 * (x1 - x0) / x.length))
        effdy := effOf s.effdy x y dy
        pf := some (s.pf.getD (D.gaussianOverR (x1 - x0)))
        rng := some (some ((s.rng.bind Prod.fst).getD x0), some ((s.rng.bind Prod.snd).getD x1)) }) := by
  have ends_ : ∀ t : PX K, t.x = some x → ends t = .ok (x0, x1) := by
    intro t ht
    unfold ends
    rw [ht]
    simp only
    rw [h.first, h.last]
  have e1 : defCres s = (.ok (), { s with cres := some (s.cres.getD (4 * (x1 - x0) / x.length)) }) := by
    unfold defCres
    cases hc : s.cres with
    | some c =>
      simp only [Option.getD_some]
      rw [← hc]
    | none => simp only [ends_ s h.hx, h.hx, Option.getD_none]
  have e3 : ∀ t : PX K, t.x = some x → defPf D t = (.ok (), { t with pf := some (t.pf.getD (D.gaussianOverR (x1 - x0))) }) := by
    intro t ht
    unfold defPf
    cases hc : t.pf with
    | some c =>
      simp only [Option.getD_some]
      rw [← hc]
    | none =>
      simp only [ends_ t ht, Option.getD_none]
      rw [if_neg (not_le.2 (sub_pos.2 h.wide))]
  have e4 : ∀ t : PX K, t.x = some x → defRng t = (.ok (), { t with
      rng := some (some ((t.rng.bind Prod.fst).getD x0), some ((t.rng.bind Prod.snd).getD x1)) }) := by
    intro t ht
    unfold defRng
    rcases hc : t.rng with _ | ⟨_ | a, _ | b⟩
    · simp only [ends_ t ht]
    · simp only [ends_ t ht]
    · simp only [ends_ t ht]
    · simp only [ends_ t ht]
    · simp only [Option.bind_some, Option.getD_some]
      rw [← hc]
  rw [e1]
  simp only [andThen]
  rw [defEffdy_ok _ x y dy (by exact h.hx) (by exact h.hy) (by exact h.hdy) h.ne]
  simp only
  rw [e3 _ (by exact h.hx)]
  simp only
  rw [e4 _ (by exact h.hx)]

/-- **C63.** On an object with data, `defaultvars` succeeds when no baseline remains to be estimated; then every
variable is set, each variable that was set before is unchanged, and the others have the documented defaults. -/
theorem c63_defaults (D : Defaults K) (s : PX K) (x y dy : List K) (x0 x1 : K) (h : HasData s x y dy x0 x1)
    (hb : ∀ f, s.baseline ≠ some (.func f)) :
    ∃ e, DefaultEff s x y dy e ∧ defaultvars D s = (.ok (),
      { s with
        cres := some (s.cres.getD (4 * (x1 - x0) / x.length))
        effdy := e
        pf := some (s.pf.getD (D.gaussianOverR (x1 - x0)))
        rng := some (some ((s.rng.bind Prod.fst).getD x0), some ((s.rng.bind Prod.snd).getD x1))
        baseline := some (s.baseline.getD (.inst D.zeroBaseline))
        errorMethod := some (s.errorMethod.getD D.aic)
        initialPeaks := some (s.initialPeaks.getD D.noPeaks) }) := by
  refine ⟨_, effOf_spec s x y dy h.ne, ?_⟩
  have e5 : ∀ t : PX K, (∀ f, t.baseline ≠ some (.func f)) → defBaseline D t = (.ok (), { t with
      baseline := some (t.baseline.getD (.inst D.zeroBaseline)) }) := by
    intro t ht
    unfold defBaseline
    rcases hc : t.baseline with _ | ⟨f | i⟩
    · rfl
    · exact absurd hc (ht f)
    · simp only [Option.getD_some]
      rw [← hc]
  unfold defaultvars
  rw [steps4 D s x y dy x0 x1 h]
  simp only [andThen]
  rw [e5 _ (by exact hb)]
  rfl

/-- **C63.** Filling in the defaults a second time changes nothing. -/
theorem c63_idempotent (D : Defaults K) (s : PX K) (x y dy : List K) (x0 x1 : K) (h : HasData s x y dy x0 x1)
    (hb : ∀ f, s.baseline ≠ some (.func f)) :
    defaultvars D (defaultvars D s).2 = (.ok (), (defaultvars D s).2) := by
  obtain ⟨e, he, hd⟩ := c63_defaults D s x y dy x0 x1 h hb
  rw [hd]
  have hb' : ∀ f, some (s.baseline.getD (.inst D.zeroBaseline)) ≠ some (Base.func f) := by
    intro f
    cases hc : s.baseline with
    | none => simp
    | some b => simp only [Option.getD_some]; rw [← hc]; exact hb f
  obtain ⟨e', he', hd'⟩ := c63_defaults D _ x y dy x0 x1
    (⟨h.hx, h.hy, h.hdy, h.leny, h.lendy, h.first, h.last, h.wide⟩ : HasData
      { s with
        cres := some (s.cres.getD (4 * (x1 - x0) / x.length))
        effdy := e
        pf := some (s.pf.getD (D.gaussianOverR (x1 - x0)))
        rng := some (some ((s.rng.bind Prod.fst).getD x0), some ((s.rng.bind Prod.snd).getD x1))
        baseline := some (s.baseline.getD (.inst D.zeroBaseline))
        errorMethod := some (s.errorMethod.getD D.aic)
        initialPeaks := some (s.initialPeaks.getD D.noPeaks) } x y dy x0 x1) hb'
  simp only at hd'
  rw [hd']
  have : e' = e := by
    unfold DefaultEff at he he'
    simp only at he'
    cases hs : s.effdy with
    | array l => rw [hs] at he; simp only at he; subst he; exact he'
    | scalar v =>
      rw [hs] at he
      simp only at he
      by_cases hv : 0 < v
      · rw [if_pos hv] at he; subst he; exact he'
      · rw [if_neg hv] at he; subst he; simp only [if_neg hv] at he'; exact he'
    | unset =>
      rw [hs] at he
      simp only at he
      by_cases ha : ∀ v ∈ dy, 0 < v
      · have := he.1 ha; subst this; exact he'
      · rw [not_forall] at ha
        obtain ⟨v, hv⟩ := ha
        rw [Classical.not_imp] at hv
        obtain ⟨a, b, -, -, -, this⟩ := he.2 ⟨v, hv⟩
        subst this; exact he'
  subst this
  rfl

/-- **C63.** A baseline function is replaced by the baseline estimated on the selected data; if it cannot be
estimated, by the zero baseline; in each case the other variables are as in `c63_defaults`. -/
theorem c63_estimated_baseline (D : Defaults K) (s : PX K) (x y dy : List K) (x0 x1 : K)
    (h : HasData s x y dy x0 x1) (f : ℕ) (hf : s.baseline = some (.func f)) (hx : x.Pairwise (· ≤ ·))
    (a b : K) (ha : (s.rng.bind Prod.fst).getD x0 = a) (hb : (s.rng.bind Prod.snd).getD x1 = b)
    (hab : a ≤ x1 ∧ x0 ≤ b) :
    ∃ lo hi : ℕ, (∀ (i : ℕ) (h : i < x.length), (lo ≤ i ∧ i < hi) ↔ (a ≤ x[i] ∧ x[i] ≤ b)) ∧
      (∀ i, D.estimate f (getSlice x (some (lo, hi))) (getSlice y (some (lo, hi))) = .ok i →
        defaultvars D s = defaultvars D { s with baseline := some (.inst i) }) ∧
      (D.estimate f (getSlice x (some (lo, hi))) (getSlice y (some (lo, hi))) = .error .estimation ∨
        D.estimate f (getSlice x (some (lo, hi))) (getSlice y (some (lo, hi))) = .error .notImplemented →
        defaultvars D s = defaultvars D { s with baseline := none }) := by
  obtain ⟨⟨lo, hi, g1, -, -, g2⟩, -⟩ :=
    (⟨(c40_range_slice x hx a b x0 x1 h.first h.last).1 hab, trivial⟩ : _ ∧ True)
  refine ⟨lo, hi, g2, ?_⟩
  have pre : ∀ bl : Option Base, ∃ t : PX K, t.x = some x ∧ t.y = some y ∧
      t.rng = some (some a, some b) ∧ t.baseline = s.baseline ∧
      andThen (andThen (andThen (defCres { s with baseline := bl }) defEffdy) (defPf D)) defRng =
        (.ok (), { t with baseline := bl }) ∧
      andThen (andThen (andThen (defCres s) defEffdy) (defPf D)) defRng = (.ok (), t) := by
    intro bl
    refine ⟨_, ?_, ?_, ?_, ?_, ?_, steps4 D s x y dy x0 x1 h⟩
    · exact h.hx
    · exact h.hy
    · simp only [ha, hb]
    · rfl
    · rw [steps4 D { s with baseline := bl } x y dy x0 x1
        ⟨h.hx, h.hy, h.hdy, h.leny, h.lendy, h.first, h.last, h.wide⟩]
  have sel : ∀ t : PX K, t.x = some x → t.y = some y → t.rng = some (some a, some b) →
      selected t = .ok (getSlice x (some (lo, hi)), getSlice y (some (lo, hi))) := by
    intro t h1 h2 h3
    unfold selected
    rw [h1, h2, h3]
    simp only
    rw [g1]
    simp
  constructor
  · intro i hi'
    obtain ⟨t, t1, t2, t3, t4, t5, t6⟩ := pre (some (.inst i))
    unfold defaultvars
    rw [t5, t6]
    simp only [andThen]
    unfold defBaseline
    rw [t4, hf]
    simp only
    rw [sel t t1 t2 t3]
    simp only
    rw [hi']
  · intro hi'
    obtain ⟨t, t1, t2, t3, t4, t5, t6⟩ := pre none
    unfold defaultvars
    rw [t5, t6]
    simp only [andThen]
    unfold defBaseline
    rw [t4, hf]
    simp only
    rw [sel t t1 t2 t3]
    simp only
    rcases hi' with hi' | hi' <;> rw [hi']

end

/-- An object with data on which all of C63 applies. -/
def exPX : PX ℚ := { x := some [0, 1, 3], y := some [1, 5, 2], dx := some [0, 0, 0], dy := some [0, 1, 1] }

/-- Instance, with the defaults computed. -/
example : HasData exPX [0, 1, 3] [1, 5, 2] [0, 1, 1] 0 3 ∧ (∀ f, exPX.baseline ≠ some (.func f)) ∧
    (defaultvars exD exPX).2.cres = some 4 ∧ (defaultvars exD exPX).2.effdy = .array [1/5, 1/5, 1/5] ∧
    (defaultvars exD exPX).2.rng = some (some 0, some 3) := by
  refine ⟨⟨rfl, rfl, rfl, rfl, rfl, rfl, rfl, by norm_num⟩, by intro f; simp [exPX], ?_⟩
  decide +kernel

/-- Instance with a baseline that cannot be estimated. -/
example : (defaultvars exD { exPX with baseline := some (.func 9), rng := some (none, some 2) }).2.baseline =
    some (.inst 1) := by decide +kernel

/-- **C63, finding.** New data of another length do not reset the variables derived from the old ones: the
uncertainties used for the fit then have the wrong length, and filling in the defaults does not help. -/
theorem c63_stale_after_setdata : ∃ (s : PX ℚ), (defaultvars exD s).1 = .ok () ∧
    (setdata (defaultvars exD s).2 [0, 1, 2, 3] [1, 1, 1, 2] none none).1 = .ok () ∧
    (defaultvars exD (setdata (defaultvars exD s).2 [0, 1, 2, 3] [1, 1, 1, 2] none none).2).1 = .ok () ∧
    (defaultvars exD (setdata (defaultvars exD s).2 [0, 1, 2, 3] [1, 1, 1, 2] none none).2).2.effdy =
      .array [1/5, 1/5, 1/5] :=
  ⟨exPX, by decide +kernel⟩

/-- **C63, finding.** Constant data without uncertainties get the uncertainty 0 at every point (by which residuals
are then divided). -/
theorem c63_zero_uncertainty : ∃ s : PX ℚ, (defaultvars exD s).1 = .ok () ∧
    (defaultvars exD s).2.effdy = .array [0, 0] :=
  ⟨{ x := some [0, 1], y := some [4, 4], dx := some [0, 0], dy := some [0, 0] }, by decide +kernel⟩

end Verif.Extraction
