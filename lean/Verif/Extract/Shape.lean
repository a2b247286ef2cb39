import Verif.Covariance.FitProps
import Verif.Extract.CodeExample
import Verif.Extract.Fitting

/-!
# Property C98: the parts of a result have the values that their functions need

## Specification
-/

set_option linter.unusedSectionVars false

namespace Verif.Parts.Extract

open Verif.Py Verif.PeakList Verif.Parts.ModelCluster Verif.Parts.Covariance Verif.Extraction

variable {K : Type} [Field K] [LinearOrder K] [IsStrictOrderedRing K]

/-- A part as the constructor makes it (`c53_new`): as many values and flags as the function has parameters, values of
floating-point type; its function keeps the number of parameters when it changes their format. -/
structure Whole (p : Part K) : Prop where
  pars : p.pars.length = p.owner.npars
  free : p.free.length = p.owner.npars
  floats : p.isInt = false
  sized : Sized p

/-- The same, and the function has a parameter. -/
structure Proper (p : Part K) : Prop where
  pars : p.pars.length = p.owner.npars
  free : p.free.length = p.owner.npars
  floats : p.isInt = false
  some : 0 < p.owner.npars
  sized : Sized p

/-- The peak functions `fs` have parameters, and keep their number when they change the format. -/
def ProperFuncs (N : Numerics K) (fs : List ℕ) : Prop :=
  ∀ f ∈ fs, 0 < (N.func f).npars ∧ ∀ v i o q, (N.func f).transform v i o = .ok q → q.length = v.length

/-! ## Lemmas -/

theorem guessed_proper (N : Numerics K) {c : Cluster K} (hf : ProperFuncs N c.funcs) {p : Part K}
    (h : guessed N c = .ok (some p)) : Proper p := by
  have h' := h
  unfold guessed at h
  split at h
  · simp at h
  · rename_i f fs hfs
    obtain ⟨g, -, h⟩ := bind_ok h
    obtain ⟨q, -, h⟩ := bind_ok h
    obtain ⟨p', hp, h⟩ := bind_ok h
    simp only [pure, Except.pure, Except.ok.injEq, Option.some.injEq] at h
    subst h
    obtain ⟨a1, a2⟩ := hf f (by rw [hfs]; exact List.mem_cons_self)
    unfold Part.new at hp
    split at hp
    · simp at hp
    · rename_i hlen
      simp only at hp
      split at hp
      · simp at hp
      · rename_i hl2
        simp only [Except.ok.injEq] at hp
        subst hp
        exact ⟨by simpa using hlen, by simpa using hl2, rfl, a1, a2⟩

theorem Proper.whole {p : Part K} (h : Proper p) : Whole p := ⟨h.pars, h.free, h.floats, h.sized⟩

theorem Whole.proper {p : Part K} (h : Whole p) (hf : 0 < p.npars false) : Proper p := by
  refine ⟨h.pars, h.free, h.floats, ?_, h.sized⟩
  rw [← h.free]
  have : p.npars false = p.free.count true := by simp [Part.npars]
  have h2 := List.count_le_length (a := true) (l := p.free)
  omega

/-- `Proper`, of the key. -/
def ProperKey (k : Key K) : Prop :=
  k.2.1.length = k.1.npars ∧ 0 < k.1.npars ∧ (∀ v i o q, k.1.transform v i o = .ok q → q.length = v.length) ∧ k.2.2.2.2.1

theorem properKey_iff (p : Part K) : ProperKey (key p) ↔ Proper p := by
  unfold ProperKey key
  constructor
  · rintro ⟨h1, h2, h3, h4⟩
    exact ⟨(h4 h3).1, h1, (h4 h3).2, h2, h3⟩
  · intro h
    exact ⟨h.free, h.some, h.sized, fun _ => ⟨h.pars, h.floats⟩⟩

theorem whole_of_same {p q : Part K} (h : SamePeak p q) (hq : Whole q) : Whole p := by
  obtain ⟨h1, h2, -, -, h5, -⟩ := h
  have hs : Sized p := by
    unfold Sized
    rw [h1]
    exact hq.sized
  obtain ⟨a1, a2⟩ := h5.2 (fun _ => ⟨hq.pars, hq.floats⟩) hs
  exact ⟨a1, by rw [h2, h1]; exact hq.free, a2, hs⟩

/-- A peak of one of the functions `fs`, as the code makes it. -/
def Made (N : Numerics K) (fs : List ℕ) (k : Key K) : Prop := Supplied N.func fs k ∧ (ProperFuncs N fs → ProperKey k)

theorem makes (N : Numerics K) (hS : Sorting N) (J : Job K) : Supplies (codeWorld N) J (Made N J.funcs) := by
  intro c p hf hp
  obtain ⟨h1, h2⟩ := (c95_estimates N).1 c p hp
  obtain ⟨f, hf1, ho⟩ := h1
  refine ⟨⟨⟨f, hf f hf1, ho⟩, h2⟩, fun hP => (properKey_iff p).2 ?_⟩
  exact guessed_proper N (fun f h => hP f (hf f h)) hp

theorem found_proper (N : Numerics K) {H : Heap K} (hf : ∀ i, ProperFuncs N (H.funcs i)) (hm : ∀ i, ∀ p ∈ H.peaks i, Proper p)
    (hb : ∀ i, Whole (H.base i)) {t : PX K} {J : Job K} (hJ : jobOf H t = .ok J) {top : Bool} {c : Cluster K}
    (hfound : Found (codeWorld N) J (Made N J.funcs) top c) :
    (∀ p ∈ c.model, Proper p) ∧ ∃ b, c.baseline = some b ∧ Whole b := by
  obtain ⟨x', y', e, a, b, bl, ip, cres, em, pf, lo, hi, -, -, -, -, -, -, -, -, -, -, rfl⟩ := jobOf_ok hJ
  constructor
  · intro p hp
    rw [← properKey_iff]
    rcases hfound.model with ⟨m, hm', hk⟩ | ⟨-, hk⟩
    · have : key p ∈ (H.peaks ip ++ m).map key := hk.sub.subset (List.mem_map.2 ⟨p, hp, rfl⟩)
      obtain ⟨q, hq, e⟩ := List.mem_map.1 this
      rw [← e]
      rcases List.mem_append.1 hq with hq | hq
      · exact (properKey_iff q).2 (hm ip q hq)
      · exact (hm' q hq).2 (hf pf)
    · exact (hk p hp).2 (hf pf)
  · rcases hfound.base with hb' | ⟨-, p, p', hp, hp', hfr⟩
    · exact ⟨_, hb', hb bl⟩
    · simp only [Option.some.injEq] at hp
      subst hp
      exact ⟨p', hp', whole_of_same ⟨hfr.owner, hfr.free, hfr.removable, hfr.static, iff_of_eq hfr.shaped, hfr.fixed⟩ (hb bl)⟩

/-! ## Theorems -/

/-- **C98.** In the result of `extract_single`, at any depth, every peak has exactly as many values and flags as its function has parameters,
whatever was fitted, scaled, joined, recursively found and pruned, provided that this holds of the initial peaks; the same for the
baseline. -/
theorem c98_extract (N : Numerics K) (hS : Sorting N) {H : Heap K} {D : Defaults K} (hN : H.peaks D.noPeaks = [])
    (hf : ∀ i, ProperFuncs N (H.funcs i)) (hm : ∀ i, ∀ p ∈ H.peaks i, Proper p) (hb : ∀ i, Whole (H.base i))
    {n depth : ℕ} {s : PX K} {c : Cluster K} {x y : List K} (hr : Ready s x y)
    (h : extractSingle (codeWorld N) H D n depth s = .ok c) :
    (∀ p ∈ c.model, Proper p) ∧ ∃ b, c.baseline = some b ∧ Whole b := by
  obtain ⟨t, J, hdv, hJ, -, -, hfound⟩ := extract_found_by (c95_sane N hS) (makes N hS) hN n depth s c x y hr h
  exact found_proper N hf hm hb hJ hfound

/-- **C98.** The same of the result of `fit_single`. -/
theorem c98_fit_single (N : Numerics K) (hS : Sorting N) {D : Defaults K} {o o' : Obj K}
    (hm : ∀ i, ∀ p ∈ o.heap.peaks i, Proper p) (hb : ∀ i, Whole (o.heap.base i)) {x y : List K} (hr : Ready o.vars x y)
    (h : fitSingle (codeWorld N) D o = (.ok (), o')) :
    ∃ c b, o'.extracted = some c ∧ (∀ p ∈ c.model, Proper p) ∧ c.baseline = some b ∧ Whole b := by
  obtain ⟨t, c, ip, -, -, h3, h4, -, h6, -⟩ := (c72_fit_single (c95_sane N hS) hr h).2 rfl
  obtain ⟨bl, b', -, b2, b3, -⟩ := h4.base
  refine ⟨c, b', h3, ?_, b2, whole_of_same b3 (hb bl)⟩
  intro p hp
  rw [← properKey_iff]
  have : key p ∈ (o.heap.peaks ip).map key := h6.subset (List.mem_map.2 ⟨p, hp, rfl⟩)
  obtain ⟨q, hq, e⟩ := List.mem_map.1 this
  rw [← e]
  exact (properKey_iff q).2 (hm ip q hq)

end Verif.Parts.Extract
