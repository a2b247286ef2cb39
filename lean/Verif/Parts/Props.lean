import Verif.Parts.Model
import Verif.Function.Props
import Mathlib.Algebra.Order.Field.Rat
import Mathlib.Data.List.Forall2
import Mathlib.Tactic.NormNum

/-!
# Properties C14, C15, C17, C18, C53: model parts and fitting
-/

namespace Verif.Parts

open Verif.Py

set_option linter.unusedSectionVars false

variable {K : Type}

/-- What the constructor guarantees: one parameter and one flag per parameter of the owner. -/
structure Valid (p : Part K) : Prop where
  pars : p.pars.length = p.owner.npars
  free : p.free.length = p.owner.npars

/-- `q` is `p` with, at most, other values of its free parameters. -/
structure SameButFree (p q : Part K) : Prop where
  owner : q.owner = p.owner
  free : q.free = p.free
  removable : q.removable = p.removable
  staticOwner : q.staticOwner = p.staticOwner
  isInt : q.isInt = p.isInt
  length : q.pars.length = p.pars.length
  fixed : ∀ k : ℕ, p.free[k]? = some false → q.pars[k]? = p.pars[k]?

theorem SameButFree.refl (p : Part K) : SameButFree p p := ⟨rfl, rfl, rfl, rfl, rfl, rfl, fun _ _ => rfl⟩

theorem SameButFree.trans {p q r : Part K} (h1 : SameButFree p q) (h2 : SameButFree q r) :
    SameButFree p r :=
  ⟨h2.owner.trans h1.owner, h2.free.trans h1.free, h2.removable.trans h1.removable,
    h2.staticOwner.trans h1.staticOwner, h2.isInt.trans h1.isInt, h2.length.trans h1.length,
    fun k hk => (h2.fixed k (by rw [h1.free]; exact hk)).trans (h1.fixed k hk)⟩

theorem SameButFree.valid {p q : Part K} (h : SameButFree p q) (hv : Valid p) : Valid q :=
  ⟨by rw [h.length, h.owner]; exact hv.pars, by rw [h.free, h.owner]; exact hv.free⟩

/-! ### Masks -/

theorem length_assignMask {α : Type} (a : List α) (m : List Bool) (v : List α) :
    (assignMask a m v).length = a.length := by
  induction a generalizing m v with
  | nil => simp [assignMask]
  | cons x a ih =>
    cases m with
    | nil => simp [assignMask]
    | cons b m => cases b <;> cases v <;> simp [assignMask, ih]

theorem assignMask_fixed {α : Type} (a : List α) (m : List Bool) (v : List α) (k : ℕ)
    (h : m[k]? = some false) : (assignMask a m v)[k]? = a[k]? := by
  induction a generalizing m v k with
  | nil => simp [assignMask]
  | cons x a ih =>
    cases m with
    | nil => simp at h
    | cons b m =>
      cases b with
      | false =>
        cases k with
        | zero => simp [assignMask]
        | succ k => simpa [assignMask] using ih m v k (by simpa using h)
      | true =>
        cases v with
        | nil => simp [assignMask]
        | cons w v =>
          cases k with
          | zero => simp at h
          | succ k => simpa [assignMask] using ih m v k (by simpa using h)

theorem length_selectMask {α : Type} (a : List α) (m : List Bool) (h : a.length = m.length) :
    (selectMask a m).length = m.count true := by
  induction a generalizing m with
  | nil => cases m with
    | nil => rfl
    | cons b m => simp at h
  | cons x a ih =>
    cases m with
    | nil => simp at h
    | cons b m =>
      have := ih m (by simpa using h)
      cases b <;> simp [selectMask, this]

theorem select_assign {α : Type} (a : List α) (m : List Bool) (v : List α)
    (h : a.length = m.length) (hv : v.length = m.count true) :
    selectMask (assignMask a m v) m = v := by
  induction a generalizing m v with
  | nil =>
    cases m with
    | nil => simp at hv; simp [selectMask, hv]
    | cons b m => simp at h
  | cons x a ih =>
    cases m with
    | nil => simp at h
    | cons b m =>
      cases b with
      | false =>
        simp only [assignMask, selectMask]
        exact ih m v (by simpa using h) (by simpa using hv)
      | true =>
        cases v with
        | nil => simp at hv
        | cons w v =>
          simp only [assignMask, selectMask]
          rw [ih m v (by simpa using h) (by simpa using hv)]

theorem assign_select {α : Type} (a : List α) (m : List Bool) :
    assignMask a m (selectMask a m) = a := by
  induction a generalizing m with
  | nil => simp [assignMask]
  | cons x a ih =>
    cases m with
    | nil => simp [assignMask]
    | cons b m => cases b <;> simp [assignMask, selectMask, ih]

/-! ### C15 -/

theorem update_same (F : Flt K) (p : Part K) (v : List K) : SameButFree p (p.update F v).2 := by
  unfold Part.update
  simp only
  have key : ∀ w, SameButFree p { p with pars := assignMask p.pars p.free w } := fun w =>
    ⟨rfl, rfl, rfl, rfl, rfl, length_assignMask _ _ _, fun k hk => assignMask_fixed _ _ _ k hk⟩
  generalize List.map (fun v => if p.isInt = true then F.trunc v else v) (List.take (p.npars false) v) = w
  by_cases h : w.length = p.npars false
  · rw [if_pos h]; exact key _
  · rw [if_neg h]
    split
    · exact key _
    · exact SameButFree.refl p

theorem forall₂_refl (ps : List (Part K)) : List.Forall₂ SameButFree ps ps := by
  induction ps with
  | nil => exact .nil
  | cons p ps ih => exact .cons (SameButFree.refl p) ih

theorem packLoop_same (F : Flt K) (ps : List (Part K)) (v : List K) :
    List.Forall₂ SameButFree ps (packLoop F ps v).2 := by
  induction ps generalizing v with
  | nil => simp [packLoop]
  | cons p ps ih =>
    unfold packLoop
    have hu := update_same F p v
    split
    · rename_i e p' h
      rw [h] at hu
      exact .cons hu (forall₂_refl ps)
    · rename_i k p' h
      rw [h] at hu
      exact .cons hu (ih _)

theorem forall₂_trans {a b c : List (Part K)} (h1 : List.Forall₂ SameButFree a b)
    (h2 : List.Forall₂ SameButFree b c) : List.Forall₂ SameButFree a c := by
  induction h1 generalizing c with
  | nil => cases h2; exact .nil
  | cons h _ ih => cases h2 with
    | cons h' t' => exact .cons (h.trans h') (ih t')

/-- **C15.** Whatever vector is packed (of whatever length, NaN or not), and whether the call returns
or raises, only free parameters can change: every part keeps its owner, flags, number of parameters
and each fixed parameter. -/
theorem c15_pack_keeps_fixed (F : Flt K) (ps : List (Part K)) (v : List K) :
    List.Forall₂ SameButFree ps (pack F ps v).2 := by
  unfold pack
  split
  · exact forall₂_refl ps
  · exact packLoop_same F ps v

/-! ### C14 -/

theorem compress_length {p : Part K} (h : Valid p) : p.compress.length = p.npars false := by
  unfold Part.compress Part.npars
  exact length_selectMask _ _ (h.pars.trans h.free.symm)

/-- **C14.** `unpack_freepars` has one entry per free parameter, `npars(count_fixed=False)` in all. -/
theorem c14_unpack_length {ps : List (Part K)} (hv : ∀ p ∈ ps, Valid p) {v : List K}
    (h : unpack ps = .ok v) : v.length = npars ps false := by
  unfold unpack at h
  split at h
  · simp at h
  · simp only [Except.ok.injEq] at h
    subst h
    unfold npars
    rw [List.length_flatMap]
    congr 1
    exact List.map_congr_left (fun p hp => compress_length (hv p hp))

theorem packLoop_ok (F : Flt K) (ps : List (Part K)) (v : List K) (hv : ∀ p ∈ ps, Valid p)
    (hf : ∀ p ∈ ps, p.isInt = false) (hlen : npars ps false ≤ v.length) :
    (packLoop F ps v).1 = .ok () ∧
      (packLoop F ps v).2.flatMap Part.compress = v.take (npars ps false) := by
  induction ps generalizing v with
  | nil => simp [packLoop, npars]
  | cons p ps ih =>
    have hp := hv p (by simp)
    simp only [npars, List.map_cons, List.sum_cons] at hlen ⊢
    set k := p.npars false with hk
    have htake : (v.take k).length = k := by rw [List.length_take]; omega
    have hupd : p.update F v = (.ok k, { p with pars := assignMask p.pars p.free (v.take k) }) := by
      unfold Part.update
      simp only [hf p (by simp), Bool.false_eq_true, if_false, List.map_id', ← hk]
      rw [if_pos htake]
    obtain ⟨h1, h2⟩ := ih (v.drop k) (fun q hq => hv q (by simp [hq])) (fun q hq => hf q (by simp [hq]))
      (by rw [List.length_drop]; unfold npars; omega)
    have hpl : packLoop F (p :: ps) v = ((packLoop F ps (v.drop k)).1,
        { p with pars := assignMask p.pars p.free (v.take k) } :: (packLoop F ps (v.drop k)).2) := by
      rw [packLoop, hupd]
    rw [hpl]
    refine ⟨h1, ?_⟩
    rw [List.flatMap_cons, h2]
    have : Part.compress { p with pars := assignMask p.pars p.free (v.take k) } = v.take k :=
      select_assign _ _ _ (hp.pars.trans hp.free.symm) (by rw [htake, hk]; rfl)
    rw [this]
    unfold npars
    rw [List.take_add]

/-- **C14.** Packing a vector of numbers with enough entries into a model of float parameters
succeeds, and unpacking then returns these entries (a longer vector is cut). -/
theorem c14_unpack_pack (F : Flt K) {ps : List (Part K)} (hne : ps ≠ []) (hv : ∀ p ∈ ps, Valid p)
    (hf : ∀ p ∈ ps, p.isInt = false) {v : List K} (hnan : ∀ x ∈ v, F.isnan x = false)
    (hlen : npars ps false ≤ v.length) :
    ∃ ps', pack F ps v = (.ok (), ps') ∧ unpack ps' = .ok (v.take (npars ps false)) := by
  obtain ⟨h1, h2⟩ := packLoop_ok F ps v hv hf hlen
  have hp : pack F ps v = packLoop F ps v := by
    unfold pack
    rw [if_neg]
    simp only [List.any_eq_true, not_exists, not_and]
    intro x hx; rw [hnan x hx]; simp
  have hne' : (packLoop F ps v).2 ≠ [] := by
    have := (packLoop_same F ps v).length_eq
    intro e
    rw [e] at this
    simp at this
    exact hne this
  refine ⟨(packLoop F ps v).2, by rw [hp, ← h1], ?_⟩
  unfold unpack
  rw [if_neg hne', h2]

/-- **C14.** Packing back what was unpacked changes nothing, for parameters that are numbers (an
integral array only holds values its cast keeps). -/
theorem c14_pack_unpack (F : Flt K) {ps : List (Part K)} (hv : ∀ p ∈ ps, Valid p)
    (hint : ∀ p ∈ ps, p.isInt = true → ∀ x ∈ p.pars, F.trunc x = x) {v : List K}
    (h : unpack ps = .ok v) (hnan : ∀ x ∈ v, F.isnan x = false) :
    pack F ps v = (.ok (), ps) := by
  have hv' : v = ps.flatMap Part.compress := by
    unfold unpack at h
    split at h
    · simp at h
    · simpa using h.symm
  have hp : pack F ps v = packLoop F ps v := by
    unfold pack
    rw [if_neg]
    simp only [List.any_eq_true, not_exists, not_and]
    intro x hx; rw [hnan x hx]; simp
  rw [hp, hv']
  clear hp hv' hnan h
  have key : ∀ rest : List K, packLoop F ps (ps.flatMap Part.compress ++ rest) = (.ok (), ps) := by
    intro rest
    induction ps with
    | nil => simp [packLoop]
    | cons p ps ih =>
      have hp := hv p (by simp)
      have hk : p.compress.length = p.npars false := compress_length hp
      have hsub : ∀ (a : List K) (m : List Bool), ∀ x ∈ selectMask a m, x ∈ a := by
        intro a
        induction a with
        | nil => intro m x hx; simp [selectMask] at hx
        | cons y a ih =>
          intro m x hx
          cases m with
          | nil => simp [selectMask] at hx
          | cons b m =>
            cases b with
            | false => simp only [selectMask] at hx; exact List.mem_cons_of_mem _ (ih m x hx)
            | true =>
              simp only [selectMask, List.mem_cons] at hx
              rcases hx with rfl | hx
              · simp
              · exact List.mem_cons_of_mem _ (ih m x hx)
      have hupd : p.update F ((p :: ps).flatMap Part.compress ++ rest) = (.ok (p.npars false), p) := by
        unfold Part.update
        simp only [List.flatMap_cons, List.append_assoc]
        rw [List.take_append_of_le_length (by omega), ← hk, List.take_length]
        have hmap : p.compress.map (fun v => if p.isInt then F.trunc v else v) = p.compress := by
          conv_rhs => rw [← List.map_id p.compress]
          apply List.map_congr_left
          intro x hx
          cases hi : p.isInt
          · simp
          · simp only [if_true, id]
            exact hint p (by simp) hi x (hsub _ _ x hx)
        rw [hmap, if_pos rfl]
        have : assignMask p.pars p.free p.compress = p.pars := assign_select _ _
        rw [this]
      rw [packLoop, hupd]
      simp only [List.flatMap_cons, List.append_assoc]
      rw [← hk, List.drop_left, ih (fun q hq => hv q (by simp [hq])) (fun q hq => hint q (by simp [hq]))]
  simpa using key []

/-- Float arithmetic of the examples: no NaN, `trunc` rounds towards zero. -/
def ratFlt : Flt ℚ := ⟨fun _ => false, fun q => (Int.tdiv q.num q.den : ℤ)⟩

/-- A two-parameter owner used in the examples. -/
def lineOwner : Owner ℚ :=
  ⟨0, 2, [("a", 0), ("b", 1)], fun p l => l.map (fun x => p.getD 0 0 + p.getD 1 0 * x),
    fun _ l fr => fr.mapIdx (fun k b => if b then some (l.map (fun x => if k = 0 then 1 else x)) else none),
    fun p _ _ => .ok p⟩

/-- Two parts, the first with a fixed parameter. -/
def exParts : List (Part ℚ) :=
  [⟨lineOwner, [1, 2], [true, false], true, false, false⟩,
   ⟨lineOwner, [3, 4], [true, true], true, false, false⟩]

example : (∀ p ∈ exParts, Valid p) ∧ exParts ≠ [] ∧ (∀ p ∈ exParts, p.isInt = false) ∧
    npars exParts false = 3 ∧ unpack exParts = .ok [1, 3, 4] ∧
    (pack ratFlt exParts [7, 8, 9]).2.map Part.pars = [[7, 2], [8, 9]] := by
  refine ⟨?_, by simp [exParts], ?_, by decide, rfl, ?_⟩
  · intro p hp
    simp only [exParts, List.mem_cons, List.not_mem_nil, or_false] at hp
    rcases hp with rfl | rfl <;> exact ⟨rfl, rfl⟩
  · intro p hp
    simp only [exParts, List.mem_cons, List.not_mem_nil, or_false] at hp
    rcases hp with rfl | rfl <;> rfl
  · rfl

/-- **C14, finding.** A vector that is too short is not always rejected: a last single value is
broadcast to all the free parameters of a part. -/
theorem c14_short_vector_broadcast :
    (pack ratFlt exParts [7, 8]).1 = .ok () ∧
    (pack ratFlt exParts [7, 8]).2.map Part.pars = [[7, 2], [8, 8]] := ⟨rfl, rfl⟩

/-- **C14, finding.** A part built from integer parameters stores them in an integer array: packing
`1/2` into it stores 0, so unpacking does not return what was packed. -/
theorem c14_integer_array_truncates :
    let ps : List (Part ℚ) := [⟨lineOwner, [1, 2], [true, false], true, false, true⟩]
    (∀ p ∈ ps, Valid p) ∧ (pack ratFlt ps [1/2]).1 = .ok () ∧
      unpack (pack ratFlt ps [1/2]).2 = .ok [0] := by
  refine ⟨?_, rfl, ?_⟩
  · intro p hp
    simp only [List.mem_cons, List.not_mem_nil, or_false] at hp
    subst hp; exact ⟨rfl, rfl⟩
  · norm_num [pack, ratFlt, packLoop, Part.update, Part.npars, unpack, Part.compress, assignMask, selectMask]
    have h : (1 / 2 : ℚ) = ⟨1, 2, by decide, by decide⟩ := by rw [Rat.mk_eq_divInt, Rat.divInt_eq_div]; norm_num
    rw [h]; rfl

/-! ### Construction, copies, equality, keys -/

/-- **C53.** The constructor accepts exactly matching lengths, and the accepted part is valid with
all parameters free by default. -/
theorem c53_new (o : Owner K) (pars : List K) (free : Option (List Bool)) (rm st ii : Bool) :
    (∀ p, Part.new o pars free rm st ii = .ok p →
      Valid p ∧ p.pars = pars ∧ p.owner = o ∧ p.removable = rm ∧ p.staticOwner = st ∧
        ∀ k, k < o.npars → p.free[k]? = (match free with | none => some true | some f => f[k]?)) ∧
    ((∃ p, Part.new o pars free rm st ii = .ok p) ↔
      pars.length = o.npars ∧ ∀ f, free = some f → f.length = o.npars) := by
  unfold Part.new
  by_cases h1 : pars.length = o.npars
  · simp only [h1, ne_eq, not_true, if_false]
    cases free with
    | none =>
      simp only [List.length_map, h1, not_true, if_false]
      refine ⟨?_, by simp⟩
      rintro p hp
      simp only [Except.ok.injEq] at hp
      subst hp
      refine ⟨⟨h1, by simp [h1]⟩, rfl, rfl, rfl, rfl, ?_⟩
      intro k hk
      simp only
      rw [List.getElem?_map, List.getElem?_eq_getElem (by omega)]
      rfl
    | some f =>
      by_cases h2 : f.length = o.npars
      · simp only [h2, not_true, if_false]
        refine ⟨?_, by simp [h2]⟩
        rintro p hp
        simp only [Except.ok.injEq] at hp
        subst hp
        exact ⟨⟨h1, h2⟩, rfl, rfl, rfl, rfl, fun _ _ => rfl⟩
      · simp [h2]
  · simp [h1]

/-- **C53.** Copying a part always succeeds and gives an identical part (as a new value), equal to
the original under `==`; `==` on parts is an equivalence relation. -/
theorem c53_copy_eq [DecidableEq K] {p q r : Part K} (hv : Valid p) :
    p.copy = .ok p ∧ p.beq p = true ∧ (p.beq q = true → q.beq p = true) ∧
    (p.beq q = true → q.beq r = true → p.beq r = true) := by
  refine ⟨?_, by simp [Part.beq], ?_, ?_⟩
  · unfold Part.copy Part.new
    simp [hv.pars, hv.free]
  · simp only [Part.beq, Bool.and_eq_true, decide_eq_true_eq, beq_iff_eq]
    rintro ⟨⟨⟨h1, h2⟩, h3⟩, h4⟩
    exact ⟨⟨⟨h1.symm, h2.symm⟩, h3.symm⟩, h4.symm⟩
  · simp only [Part.beq, Bool.and_eq_true, decide_eq_true_eq, beq_iff_eq]
    rintro ⟨⟨⟨h1, h2⟩, h3⟩, h4⟩ ⟨⟨⟨k1, k2⟩, k3⟩, k4⟩
    exact ⟨⟨⟨h1.trans k1, h2.trans k2⟩, h3.trans k3⟩, h4.trans k4⟩

/-- **C53.** `getfree` after `setfree` returns the value set; every other position, and all
parameters, are untouched. -/
theorem c53_setfree {p q : Part K} {k : Key} {v : Bool} (h : p.setfree k v = .ok q) :
    q.getfree k = .ok v ∧ q.pars = p.pars ∧ q.owner = p.owner ∧ q.free.length = p.free.length ∧
    ∀ k', (∀ i, p.position k = .ok i → p.position k' ≠ .ok i) → q.getfree k' = p.getfree k' := by
  unfold Part.setfree at h
  cases hk : p.position k with
  | error e => rw [hk] at h; simp at h
  | ok i =>
    rw [hk] at h
    simp only at h
    split at h
    · rename_i hi
      simp only [Except.ok.injEq] at h
      subst h
      have hpos : ∀ k', Part.position { p with free := p.free.set i v } k' = p.position k' := by
        intro k'; cases k' <;> rfl
      refine ⟨?_, rfl, rfl, by simp, ?_⟩
      · unfold Part.getfree
        rw [hpos, hk]
        simp [hi]
      · intro k' hne
        unfold Part.getfree
        rw [hpos]
        cases hk' : p.position k' with
        | error e => rfl
        | ok j =>
          have : i ≠ j := by
            intro e; subst e
            exact hne i rfl hk'
          simp [List.getElem?_set_ne this]
    · simp at h

/-! ### C17 -/

/-- **C17.** `changeowner` either installs the new owner and changes nothing else, or raises
SrMiseStaticOwnerError leaving the part as it was.  It accepts exactly when the numbers of
parameters agree and the part is not static (unless the owner is the same object). A valid part
stays valid. -/
theorem c17_changeowner (p : Part K) (o : Owner K) :
    ((p.changeowner o).1 = .ok () ∧ (p.changeowner o).2 = { p with owner := o } ∨
      (p.changeowner o).1 = .error .staticOwner ∧ (p.changeowner o).2 = p) ∧
    ((p.changeowner o).1 = .ok () ↔
      p.owner.npars = o.npars ∧ (p.staticOwner = true → p.owner.id = o.id)) ∧
    (p.staticOwner = true → (p.changeowner o).2.owner.id = p.owner.id) ∧
    (Valid p → Valid (p.changeowner o).2) := by
  unfold Part.changeowner
  split
  · rename_i h
    refine ⟨.inr ⟨rfl, rfl⟩, ?_, fun _ => rfl, fun h => h⟩
    simp only [reduceCtorEq, false_iff, not_and]
    intro _ h2; exact absurd (h2 h.1) h.2
  · rename_i h
    have h' : p.staticOwner = true → p.owner.id = o.id := by
      intro hs; by_contra hc; exact h ⟨hs, hc⟩
    split
    · rename_i hn
      refine ⟨.inr ⟨rfl, rfl⟩, ?_, fun _ => rfl, fun h => h⟩
      simp only [reduceCtorEq, false_iff, not_and]
      intro e; exact absurd e hn
    · rename_i hn
      rw [ne_eq, not_not] at hn
      refine ⟨.inl ⟨rfl, rfl⟩, by simpa [hn] using h', fun hs => (h' hs).symm, ?_⟩
      intro hv
      exact ⟨hv.pars.trans hn, hv.free.trans hn⟩

/-- Non-trivial instance: a static part refuses another owner with as many parameters. -/
example : ((⟨lineOwner, [1, 2], [true, false], true, true, false⟩ : Part ℚ).changeowner
    { lineOwner with id := 5 }).1 = .error .staticOwner := rfl

/-! ### C18: fitting -/

section Fit

variable [Field K]

theorem runTrace_same (F : Flt K) (ps : List (Part K)) (vs : List (List K)) :
    List.Forall₂ SameButFree ps (runTrace F ps vs).2 := by
  induction vs generalizing ps with
  | nil => exact forall₂_refl ps
  | cons v vs ih =>
    have h := c15_pack_keeps_fixed F ps v
    unfold runTrace
    split
    · rename_i e ps' hp
      rw [hp] at h; exact h
    · rename_i ps' hp
      rw [hp] at h
      exact forall₂_trans h (ih ps')

theorem runLsq_same (F : Flt K) (ps : List (Part K)) (l : Lsq K) :
    List.Forall₂ SameButFree ps (runLsq F ps l).2 := by
  have h := runTrace_same F ps l.trace
  unfold runLsq
  split
  · rename_i hp; rw [hp] at h; exact h
  · rename_i hp; rw [hp] at h
    split <;> exact h

/-- The parts after the normalising internal → internal transformation: `q` is `p` with its
parameters replaced by the transformed ones. -/
def Normalised (p q : Part K) : Prop :=
  ∃ w, p.owner.transform p.pars (some "internal") (some "internal") = .ok w ∧
    q = { p with pars := w }

theorem cleanup_ok {ps qs : List (Part K)} (h : cleanup ps = (.ok (), qs)) :
    List.Forall₂ Normalised ps qs := by
  induction ps generalizing qs with
  | nil => simp [cleanup] at h; subst h; exact .nil
  | cons p ps ih =>
    unfold cleanup at h
    split at h
    · simp at h
    · rename_i w hw
      simp only [Prod.mk.injEq] at h
      obtain ⟨h1, h2⟩ := h
      subst h2
      exact .cons ⟨w, hw, rfl⟩ (ih (by rw [← h1]))

/-- **C18.** With at least as many free parameters as points the fit is refused with SrMiseFitError
and the model is untouched; with no free parameter it returns without touching the model; an empty
model raises ValueError (nothing to concatenate). -/
theorem c18_fit_refusals (F : Flt K) (ps : List (Part K)) (hv : ∀ p ∈ ps, Valid p) (nr : ℕ)
    (cov : Bool) (l1 l2 : Lsq K) :
    (ps = [] → fit F ps nr cov l1 l2 = (.error .value, ps)) ∧
    (ps ≠ [] → nr ≤ npars ps false → fit F ps nr cov l1 l2 = (.error .fit, ps)) ∧
    (ps ≠ [] → npars ps false = 0 → 0 < nr → fit F ps nr cov l1 l2 = (.ok none, ps)) := by
  refine ⟨?_, ?_, ?_⟩
  · rintro rfl; simp [fit, unpack]
  · intro hne h
    have hu : unpack ps = .ok (ps.flatMap Part.compress) := by unfold unpack; rw [if_neg hne]
    have hl := c14_unpack_length hv hu
    unfold fit
    rw [hu]
    simp only
    rw [if_pos (by omega)]
  · intro hne h h0
    have hu : unpack ps = .ok (ps.flatMap Part.compress) := by unfold unpack; rw [if_neg hne]
    have hl := c14_unpack_length hv hu
    unfold fit
    rw [hu]
    simp only
    rw [if_neg (by omega), if_pos (by omega)]

theorem finishFit_cases (F : Flt K) (ps : List (Part K)) (nr n : ℕ) (cov : Bool) (x : List K) (ier : ℤ)
    (covx : Option (List (List K))) (fvec : List K) :
    (∀ c qs, finishFit F ps nr n cov x ier covx fvec = (.ok c, qs) →
      ∃ ms, pack F ps x = (.ok (), ms) ∧ ier ∈ ([1, 2, 3, 4] : List ℤ) ∧
        cleanup ms = (.ok (), qs) ∧ (cov = false → c = none) ∧
        (cov = true → ∃ m, covx = some m ∧ c = some (m.map (fun row => row.map (fun v =>
          v * (fvec.map (fun v => v ^ 2)).sum / ((nr : K) - n)))))) ∧
    (∀ qs, finishFit F ps nr n cov x ier covx fvec = (.error .fit, qs) →
      (∀ p ∈ ps, ∀ w, p.owner.transform w (some "internal") (some "internal") ≠ .error .fit) →
      List.Forall₂ SameButFree ps qs) := by
  have hcl : ∀ ms qs, List.Forall₂ SameButFree ps ms → cleanup ms = (.error .fit, qs) →
      (∀ p ∈ ps, ∀ w, p.owner.transform w (some "internal") (some "internal") ≠ .error .fit) →
      False := by
    intro ms qs h
    induction h generalizing qs with
    | nil => intro h; simp [cleanup] at h
    | @cons p m ps ms hpm _ ih =>
      intro h hT
      unfold cleanup at h
      split at h
      · rename_i e he
        simp only [Prod.mk.injEq, Except.error.injEq] at h
        rw [hpm.owner, h.1] at he
        exact hT p (by simp) _ he
      · simp only [Prod.mk.injEq] at h
        exact ih (cleanup ms).2 (by rw [← h.1]) (fun q hq => hT q (by simp [hq]))
  have hpk := c15_pack_keeps_fixed F ps x
  constructor
  · intro c qs h
    unfold finishFit at h
    split at h
    · simp at h
    · rename_i ms hm
      refine ⟨ms, hm, ?_⟩
      split at h
      · simp at h
      · rename_i hier
        refine ⟨not_not.1 hier, ?_⟩
        split at h
        · simp at h
        · rename_i qs' hq
          cases cov with
          | false =>
            simp only [Bool.false_eq_true, if_false, Prod.mk.injEq, Except.ok.injEq] at h
            obtain ⟨rfl, rfl⟩ := h
            exact ⟨hq, fun _ => rfl, by simp⟩
          | true =>
            simp only [if_true] at h
            cases covx with
            | none => simp at h
            | some m =>
              simp only [Prod.mk.injEq, Except.ok.injEq] at h
              obtain ⟨rfl, rfl⟩ := h
              exact ⟨hq, by simp, fun _ => ⟨m, rfl, rfl⟩⟩
  · intro qs h hT
    unfold finishFit at h
    split at h
    · rename_i e ps' hp
      simp only [Prod.mk.injEq] at h
      rw [← h.2]; rw [hp] at hpk; exact hpk
    · rename_i ms hm
      rw [hm] at hpk
      split at h
      · simp only [Prod.mk.injEq] at h
        rw [← h.2]; exact hpk
      · split at h
        · rename_i e qs' hq
          simp only [Prod.mk.injEq, Except.error.injEq] at h
          rw [h.1] at hq
          exact (hcl ms qs' hpk hq hT).elim
        · rename_i qs' hq
          split at h
          · split at h <;> simp at h
          · simp at h

theorem npars_same {ps ms : List (Part K)} (h : List.Forall₂ SameButFree ps ms) :
    npars ms false = npars ps false := by
  induction h with
  | nil => rfl
  | cons h _ ih =>
    simp only [npars, List.map_cons, List.sum_cons, Part.npars, h.free] at ih ⊢
    simp only [Bool.false_eq_true, if_false] at ih ⊢
    rw [ih]

theorem forall₂_mem {ps ms : List (Part K)} (h : List.Forall₂ SameButFree ps ms) :
    ∀ m ∈ ms, ∃ p ∈ ps, SameButFree p m := by
  induction h with
  | nil => simp
  | cons h _ ih =>
    intro m hm
    rcases List.mem_cons.1 hm with rfl | hm
    · exact ⟨_, by simp, h⟩
    · obtain ⟨p, hp, hs⟩ := ih m hm
      exact ⟨p, by simp [hp], hs⟩

/-- How a fit with free parameters and enough points ends. -/
theorem fit_cases (F : Flt K) {ps : List (Part K)} (hv : ∀ p ∈ ps, Valid p) {nr : ℕ} {cov : Bool}
    {l1 l2 : Lsq K} {res : Res (Option (List (List K)))} {qs : List (Part K)}
    (h : fit F ps nr cov l1 l2 = (res, qs)) (hfree : 0 < npars ps false) :
    (List.Forall₂ SameButFree ps qs ∧ ∃ e, res = .error e) ∨
    npars ps false < nr ∧ ∃ x ier covx fvec ps', (l1.outcome = .done x ier covx fvec ∨
        l2.outcome = .done x ier covx fvec) ∧
      List.Forall₂ SameButFree ps ps' ∧
      finishFit F ps' nr (npars ps false) cov x ier covx fvec = (res, qs) := by
  unfold fit at h
  have hout : ∀ (ps' : List (Part K)) (l : Lsq K) x ier c f ps'',
      runLsq F ps' l = (.ok (x, ier, c, f), ps'') → l.outcome = .done x ier c f := by
    intro ps' l x ier c f ps'' h
    unfold runLsq at h
    split at h
    · simp at h
    · split at h
      · simp at h
      · rename_i heq
        simp only [Prod.mk.injEq, Except.ok.injEq] at h
        obtain ⟨⟨rfl, rfl, rfl, rfl⟩, -⟩ := h
        exact heq
  cases hu : unpack ps with
  | error e =>
    rw [hu] at h
    simp only [Prod.mk.injEq] at h
    exact .inl ⟨h.2 ▸ forall₂_refl ps, e, h.1.symm⟩
  | ok v =>
    have hl := c14_unpack_length hv hu
    rw [hu] at h
    simp only at h
    split at h
    · simp only [Prod.mk.injEq] at h
      exact .inl ⟨h.2 ▸ forall₂_refl ps, _, h.1.symm⟩
    · rename_i hnr
      rw [if_neg (by omega)] at h
      have h1 := runLsq_same F ps l1
      rw [hl] at h
      split at h
      · rename_i x ier c f ps' hr
        rw [hr] at h1
        exact .inr ⟨by omega, x, ier, c, f, ps', .inl (hout _ _ _ _ _ _ _ hr), h1, h⟩
      · rename_i ps' hr
        rw [hr] at h1
        have h2 := runLsq_same F ps' l2
        split at h
        · rename_i x ier c f ps'' hr2
          rw [hr2] at h2
          exact .inr ⟨by omega, x, ier, c, f, ps'', .inr (hout _ _ _ _ _ _ _ hr2),
            forall₂_trans h1 h2, h⟩
        · rename_i e ps'' hr2
          rw [hr2] at h2
          simp only [Prod.mk.injEq] at h
          exact .inl ⟨h.2 ▸ forall₂_trans h1 h2, e, h.1.symm⟩
      · rename_i e ps' _ hr
        rw [hr] at h1
        simp only [Prod.mk.injEq] at h
        exact .inl ⟨h.2 ▸ h1, _, h.1.symm⟩

/-- **C18.** Whatever least-squares does (any evaluations, any outcome), if the fit succeeds then the
optimiser reported success (flag 1–4) with some vector `x` of numbers; the model is the normalised
form of the original with `x` packed into its free parameters; the number of degrees of freedom is
positive, and the covariance is `cov_x · Σ fvec² / dof`. -/
theorem c18_fit_success (F : Flt K) (ps : List (Part K)) (hv : ∀ p ∈ ps, Valid p)
    (hint : ∀ p ∈ ps, p.isInt = false) (nr : ℕ)
    (cov : Bool) (l1 l2 : Lsq K) {c : Option (List (List K))} {qs : List (Part K)}
    (h : fit F ps nr cov l1 l2 = (.ok c, qs)) (hfree : 0 < npars ps false) :
    npars ps false < nr ∧
    ∃ x ier covx fvec ms, (l1.outcome = .done x ier covx fvec ∨ l2.outcome = .done x ier covx fvec) ∧
      ier ∈ ([1, 2, 3, 4] : List ℤ) ∧ (∀ v ∈ x, F.isnan v = false) ∧
      List.Forall₂ SameButFree ps ms ∧
      (npars ps false ≤ x.length → unpack ms = .ok (x.take (npars ps false))) ∧
      List.Forall₂ Normalised ms qs ∧
      (cov = false → c = none) ∧
      (cov = true → ∃ m, covx = some m ∧ c = some (m.map (fun row => row.map (fun v =>
          v * (fvec.map (fun v => v ^ 2)).sum / ((nr : K) - (npars ps false : ℕ)))))) := by
  rcases fit_cases F hv h hfree with ⟨-, e, he⟩ | ⟨hlt, x, ier, covx, fvec, ps', hout, hsame, hfin⟩
  · simp at he
  · obtain ⟨ms, hm, hier, hcl, hc1, hc2⟩ := (finishFit_cases F ps' nr _ cov x ier covx fvec).1 c qs hfin
    have hms := c15_pack_keeps_fixed F ps' x
    rw [hm] at hms
    have hnan : ∀ v ∈ x, F.isnan v = false := by
      unfold pack at hm
      split at hm
      · simp at hm
      · rename_i hh
        simpa using hh
    refine ⟨hlt, x, ier, covx, fvec, ms, hout, hier, hnan, forall₂_trans hsame hms, ?_,
      cleanup_ok hcl, hc1, hc2⟩
    intro hlen
    have hne : ps' ≠ [] := by
      rintro rfl
      cases hsame
      simp [npars] at hfree
    have hv' : ∀ p ∈ ps', Valid p := by
      intro p hp
      obtain ⟨q, hq, hs⟩ := forall₂_mem hsame p hp
      exact hs.valid (hv q hq)
    have hint' : ∀ p ∈ ps', p.isInt = false := by
      intro p hp
      obtain ⟨q, hq, hs⟩ := forall₂_mem hsame p hp
      rw [hs.isInt]; exact hint q hq
    obtain ⟨ms', hm', hu⟩ := c14_unpack_pack F hne hv' hint' hnan (by rw [npars_same hsame]; exact hlen)
    rw [hm, Prod.mk.injEq] at hm'
    rw [hm'.2, hu, npars_same hsame]

/-- **C18.** When the fit raises SrMiseFitError, at most free parameters have moved: no fixed
parameter, flag, owner changes, and no part appears or disappears. -/
theorem c18_fit_error_keeps_fixed (F : Flt K) (ps : List (Part K)) (hv : ∀ p ∈ ps, Valid p) (nr : ℕ)
    (cov : Bool) (l1 l2 : Lsq K) {qs : List (Part K)}
    (hT : ∀ p ∈ ps, ∀ w, p.owner.transform w (some "internal") (some "internal") ≠ .error .fit)
    (h : fit F ps nr cov l1 l2 = (.error .fit, qs)) : List.Forall₂ SameButFree ps qs := by
  by_cases hfree : 0 < npars ps false
  · rcases fit_cases F hv h hfree with ⟨hs, -⟩ | ⟨-, x, ier, covx, fvec, ps', -, hsame, hfin⟩
    · exact hs
    · refine forall₂_trans hsame ((finishFit_cases F ps' nr _ cov x ier covx fvec).2 qs hfin ?_)
      intro p hp w
      obtain ⟨q, hq, hs⟩ := forall₂_mem hsame p hp
      rw [hs.owner]; exact hT q hq w
  · obtain ⟨r1, r2, r3⟩ := c18_fit_refusals F ps hv nr cov l1 l2
    by_cases hne : ps = []
    · rw [r1 hne] at h; simp at h
    · by_cases hnr : 0 < nr
      · rw [r3 hne (by omega) hnr] at h; simp at h
      · rw [r2 hne (by omega)] at h
        simp only [Prod.mk.injEq, true_and] at h
        exact h ▸ forall₂_refl ps

end Fit

/-- A least-squares run that tries `(5, 6, 7)` and reports `(7, 8, 9)`. -/
def exLsq (ier : ℤ) (c : Option (List (List ℚ))) : Lsq ℚ :=
  ⟨[[5, 6, 7]], .done [7, 8, 9] ier c [1, 1, 1, 1, 1]⟩

/-- Non-trivial instance of a successful fit: three free parameters, five points. -/
example : (fit ratFlt exParts 5 true (exLsq 1 (some [[4, 0, 0], [0, 4, 0], [0, 0, 4]])) ⟨[], .raises .value⟩).1 =
      .ok (some [[10, 0, 0], [0, 10, 0], [0, 0, 10]]) ∧
    (fit ratFlt exParts 5 true (exLsq 1 (some [[4, 0, 0], [0, 4, 0], [0, 0, 4]])) ⟨[], .raises .value⟩).2.map
      Part.pars = [[7, 2], [8, 9]] := by
  constructor
  · simp [fit, exParts, unpack, Part.compress, selectMask, runLsq, exLsq, runTrace, pack, ratFlt,
      packLoop, Part.update, Part.npars, assignMask, finishFit, cleanup, lineOwner]
    norm_num
  · simp [fit, exParts, unpack, Part.compress, selectMask, runLsq, exLsq, runTrace, pack, ratFlt,
      packLoop, Part.update, Part.npars, assignMask, finishFit, cleanup, lineOwner]

/-- **C18, finding.** A fit that fails (flag 5) raises SrMiseFitError but leaves the parameters at the
values of the failed attempt, not at the original ones. -/
theorem c18_failed_fit_moves_parameters :
    (fit ratFlt exParts 5 false (exLsq 5 none) ⟨[], .raises .value⟩).1 = .error .fit ∧
    (fit ratFlt exParts 5 false (exLsq 5 none) ⟨[], .raises .value⟩).2.map Part.pars =
      [[7, 2], [8, 9]] ∧ exParts.map Part.pars = [[1, 2], [3, 4]] := ⟨rfl, rfl, rfl⟩

/-- **C18, finding.** When a covariance is requested and least-squares finds a singular matrix
(`cov_x` is `None`) the successful fit ends in a TypeError. -/
theorem c18_singular_cov_type_error :
    (fit ratFlt exParts 5 true (exLsq 1 none) ⟨[], .raises .value⟩).1 = .error .type := rfl

end Verif.Parts
