import Verif.Function.Model
import Mathlib.Data.List.Nodup
import Mathlib.Data.List.Perm.Basic
import Mathlib.Tactic.Ring
import Mathlib.Algebra.Order.Field.Rat

/-!
# Properties C19–C21: base functions
-/

namespace Verif.Function

open Verif.Py

set_option linter.unusedSectionVars false

variable {D : Type} [DecidableEq D]

/-! ### C19: serialisation order -/

/-- `g` is `f` or one of the functions `f` is built on. -/
inductive DependsOn : Fn D → Fn D → Prop
  | refl (f : Fn D) : DependsOn f f
  | step {f b g : Fn D} : f.base? = some b → DependsOn b g → DependsOn f g

/-- Every function of the list stands after its base. -/
def BasesFirst (l : List (Fn D)) : Prop :=
  ∀ (i : ℕ) (f b : Fn D), l[i]? = some f → f.base? = some b → ∃ j, j < i ∧ l[j]? = some b

theorem dependsOn_sizeOf {f g : Fn D} (h : DependsOn f g) : sizeOf g ≤ sizeOf f := by
  induction h with
  | refl f => exact le_rfl
  | @step f b g hb _ ih =>
    cases f with
    | prim i d => simp [Fn.base?] at hb
    | over i d b' =>
      simp only [Fn.base?, Option.some.injEq] at hb
      subst hb
      simp only [Fn.over.sizeOf_spec]
      omega

theorem closed_of_basesFirst {l : List (Fn D)} (h : BasesFirst l) {f g : Fn D}
    (hd : DependsOn f g) (hf : f ∈ l) : g ∈ l := by
  induction hd with
  | refl f => exact hf
  | @step f b g hb _ ih =>
    apply ih
    obtain ⟨i, hi⟩ := List.mem_iff_getElem?.1 hf
    obtain ⟨j, -, hj⟩ := h i f b hi hb
    exact List.mem_of_getElem? hj

theorem dependsOn_prim {i : ℕ} {d : D} {g : Fn D} : DependsOn (.prim i d) g ↔ g = .prim i d := by
  constructor
  · intro h
    cases h with
    | refl => rfl
    | step hb _ => simp [Fn.base?] at hb
  · rintro rfl; exact .refl _

theorem dependsOn_over {i : ℕ} {d : D} {b g : Fn D} :
    DependsOn (.over i d b) g ↔ g = .over i d b ∨ DependsOn b g := by
  constructor
  · intro h
    cases h with
    | refl => exact .inl rfl
    | step hb h' =>
      simp only [Fn.base?, Option.some.injEq] at hb
      subst hb; exact .inr h'
  · rintro (rfl | h)
    · exact .refl _
    · exact .step rfl h

theorem basesFirst_append {l : List (Fn D)} (h : BasesFirst l) (f : Fn D)
    (hb : ∀ b, f.base? = some b → b ∈ l) : BasesFirst (l ++ [f]) := by
  intro i g b hg hgb
  rcases lt_trichotomy i l.length with hi | hi | hi
  · rw [List.getElem?_append_left hi] at hg
    obtain ⟨j, hj, hj'⟩ := h i g b hg hgb
    exact ⟨j, hj, by rw [List.getElem?_append_left (by omega)]; exact hj'⟩
  · subst hi
    rw [List.getElem?_append_right (by omega)] at hg
    simp only [Nat.sub_self, List.getElem?_cons_zero, Option.some.injEq] at hg
    subst hg
    obtain ⟨j, hj⟩ := List.mem_iff_getElem?.1 (hb b hgb)
    have hjl : j < l.length := by
      by_contra hc
      rw [List.getElem?_eq_none (by omega)] at hj
      simp at hj
    exact ⟨j, hjl, by rw [List.getElem?_append_left hjl]; exact hj⟩
  · rw [List.getElem?_eq_none (by simp; omega)] at hg
    simp at hg

theorem safefunction_spec (f : Fn D) (acc : List (Fn D)) (hn : acc.Nodup) (hb : BasesFirst acc) :
    (safefunction f acc).Nodup ∧ BasesFirst (safefunction f acc) ∧
      ∀ g, g ∈ safefunction f acc ↔ g ∈ acc ∨ DependsOn f g := by
  induction f with
  | prim i d =>
    unfold safefunction
    split
    · rename_i hm
      refine ⟨hn, hb, fun g => ⟨.inl, ?_⟩⟩
      rintro (h | h)
      · exact h
      · rw [dependsOn_prim.1 h]; exact hm
    · rename_i hm
      refine ⟨List.nodup_append.2 ⟨hn, by simp, ?_⟩, basesFirst_append hb _ (by simp [Fn.base?]), ?_⟩
      · intro a ha b hb' e
        rw [List.mem_singleton] at hb'
        subst e hb'
        exact hm ha
      · intro g
        rw [List.mem_append, List.mem_singleton, dependsOn_prim]
  | over i d b ih =>
    unfold safefunction
    split
    · rename_i hm
      refine ⟨hn, hb, fun g => ⟨.inl, ?_⟩⟩
      rintro (h | h)
      · exact h
      · exact closed_of_basesFirst hb h hm
    · rename_i hm
      obtain ⟨h1, h2, h3⟩ := ih
      have hnot : Fn.over i d b ∉ safefunction b acc := by
        rw [h3]
        rintro (h | h)
        · exact hm h
        · have := dependsOn_sizeOf h
          simp only [Fn.over.sizeOf_spec] at this
          omega
      refine ⟨List.nodup_append.2 ⟨h1, by simp, ?_⟩, basesFirst_append h2 _ ?_, ?_⟩
      · intro a ha c hc e
        rw [List.mem_singleton] at hc
        subst e hc
        exact hnot ha
      · intro c hc
        simp only [Fn.base?, Option.some.injEq] at hc
        subst hc
        exact (h3 _).2 (.inr (.refl _))
      · intro g
        rw [List.mem_append, List.mem_singleton, h3, dependsOn_over]
        tauto

/-- **C19.** `safefunctionlist(fs)` contains exactly the functions of `fs` and everything they are
built on, each once, and each after its base. -/
theorem c19_safefunctionlist (fs : List (Fn D)) :
    (safefunctionlist fs).Nodup ∧ BasesFirst (safefunctionlist fs) ∧
      ∀ g, g ∈ safefunctionlist fs ↔ ∃ f ∈ fs, DependsOn f g := by
  have key : ∀ (fs acc : List (Fn D)), acc.Nodup → BasesFirst acc →
      (fs.foldl (fun acc f => safefunction f acc) acc).Nodup ∧
      BasesFirst (fs.foldl (fun acc f => safefunction f acc) acc) ∧
      ∀ g, g ∈ fs.foldl (fun acc f => safefunction f acc) acc ↔
        g ∈ acc ∨ ∃ f ∈ fs, DependsOn f g := by
    intro fs
    induction fs with
    | nil => intro acc hn hb; simp [hn, hb]
    | cons f fs ih =>
      intro acc hn hb
      obtain ⟨h1, h2, h3⟩ := safefunction_spec f acc hn hb
      obtain ⟨h4, h5, h6⟩ := ih _ h1 h2
      rw [List.foldl_cons]
      refine ⟨h4, h5, fun g => ?_⟩
      rw [h6, h3]
      simp only [List.mem_cons, exists_eq_or_imp]
      tauto
  obtain ⟨h1, h2, h3⟩ := key fs [] List.nodup_nil (by intro i f b h; simp at h)
  exact ⟨h1, h2, fun g => by rw [safefunctionlist, h3]; simp⟩

/-- Non-trivial instance: a decorated function listed before its base, and repeated. -/
example : safefunctionlist [Fn.over 1 "TerminationRipples" (.prim 0 "GaussianOverR"),
    .prim 0 "GaussianOverR", .prim 2 "Gaussian", Fn.over 1 "TerminationRipples" (.prim 0 "GaussianOverR")]
    = [.prim 0 "GaussianOverR", .over 1 "TerminationRipples" (.prim 0 "GaussianOverR"),
       .prim 2 "Gaussian"] := by decide

/-- The record written for `f` against `l` when its base is in `l`. -/
def recOf (l : List (Fn D)) (f : Fn D) : Rec D := ⟨f.data, f.base?.map (fun b => l.idxOf b)⟩

theorem writeAll_eq {l : List (Fn D)} (h : BasesFirst l) : writeAll l = .ok (l.map (recOf l)) := by
  have key : ∀ s : List (Fn D), (∀ f ∈ s, f ∈ l) →
      s.mapM (fun f => writestr f l) = (.ok (s.map (recOf l)) : Res _) := by
    intro s
    induction s with
    | nil => intro _; rfl
    | cons f s ih =>
      intro hs
      have hf : writestr f l = .ok (recOf l f) := by
        unfold writestr recOf
        cases hb : f.base? with
        | none => rfl
        | some b =>
          have : b ∈ l := closed_of_basesFirst h (.step hb (.refl _)) (hs f (by simp))
          simp [this]
      rw [List.mapM_cons, hf, ih (fun g hg => hs g (by simp [hg]))]
      rfl
  exact key l (fun _ h => h)

/-- `gs` is a copy of `l` up to position `m`: same classes and metadata, and bases at the same
positions. -/
def CopyUpTo (k m : ℕ) (l gs : List (Fn D)) : Prop :=
  gs.length = m ∧ ∀ (i : ℕ) f, i < m → l[i]? = some f → ∃ g, gs[i]? = some g ∧ g.data = f.data ∧
    g.id = k + i ∧ (f.base? = none → g.base? = none) ∧
    ∀ b (j : ℕ), f.base? = some b → l[j]? = some b → ∃ c, gs[j]? = some c ∧ g.base? = some c

theorem readAll_spec {l : List (Fn D)} (hn : l.Nodup) (h : BasesFirst l) (k : ℕ) :
    ∀ (n m : ℕ) (acc : List (Fn D)), n + m = l.length → CopyUpTo k m l acc →
      ∃ gs, readAll k ((l.drop m).map (recOf l)) acc = .ok gs ∧ CopyUpTo k l.length l gs := by
  intro n
  induction n with
  | zero =>
    intro m acc hm hc
    have : m = l.length := by omega
    subst this
    exact ⟨acc, by simp [readAll], hc⟩
  | succ n ih =>
    intro m acc hm hc
    have hlt : m < l.length := by omega
    rw [List.drop_eq_getElem_cons hlt, List.map_cons, readAll]
    have hidx : ∀ b (j : ℕ), l[j]? = some b → l.idxOf b = j := by
      intro b j hj
      obtain ⟨hj', rfl⟩ := List.getElem?_eq_some_iff.1 hj
      exact List.Nodup.idxOf_getElem hn j hj'
    have hstep : ∃ g, factory (recOf l l[m]) acc (k + acc.length) = .ok g ∧
        CopyUpTo k (m + 1) l (acc ++ [g]) := by
      have hold : ∀ g, ∀ (i : ℕ) f, i < m → l[i]? = some f → ∃ g', (acc ++ [g])[i]? = some g' ∧
          g'.data = f.data ∧ g'.id = k + i ∧ (f.base? = none → g'.base? = none) ∧
          ∀ b (j : ℕ), f.base? = some b → l[j]? = some b →
            ∃ c, (acc ++ [g])[j]? = some c ∧ g'.base? = some c := by
        intro g i f hi hf
        obtain ⟨g', e1, e2, e3, e4, e5⟩ := hc.2 i f hi hf
        refine ⟨g', by rw [List.getElem?_append_left (by rw [hc.1]; exact hi)]; exact e1, e2, e3, e4, ?_⟩
        intro b j hb hj
        obtain ⟨c, hc1, hc2⟩ := e5 b j hb hj
        refine ⟨c, ?_, hc2⟩
        have : j < acc.length := by
          by_contra hcon
          rw [List.getElem?_eq_none (by omega)] at hc1
          simp at hc1
        rw [List.getElem?_append_left this]; exact hc1
      have happ : ∀ g, (acc ++ [g])[m]? = some g := by
        intro g
        rw [List.getElem?_append_right hc.1.le]; simp [hc.1]
      cases hb : (l[m]).base? with
      | none =>
        refine ⟨.prim (k + acc.length) (l[m]).data, by simp [factory, recOf, hb], by simp [hc.1], ?_⟩
        intro i f hi hf
        rcases Nat.lt_succ_iff_lt_or_eq.1 hi with hi | rfl
        · exact hold _ i f hi hf
        · rw [List.getElem?_eq_getElem hlt, Option.some.injEq] at hf
          subst hf
          refine ⟨_, happ _, rfl, by simp [Fn.id, hc.1], fun _ => rfl, ?_⟩
          intro b j hb'
          rw [hb] at hb'; simp at hb'
      | some b =>
        obtain ⟨j, hj, hjb⟩ := h m l[m] b (List.getElem?_eq_getElem hlt) hb
        have hjl : j < acc.length := by rw [hc.1]; exact hj
        refine ⟨.over (k + acc.length) (l[m]).data acc[j], ?_, by simp [hc.1], ?_⟩
        · simp only [factory, recOf, hb, Option.map_some, hidx b j hjb]
          rw [if_neg (by omega), List.getElem?_eq_getElem hjl]
        · intro i f hi hf
          rcases Nat.lt_succ_iff_lt_or_eq.1 hi with hi | rfl
          · exact hold _ i f hi hf
          · rw [List.getElem?_eq_getElem hlt, Option.some.injEq] at hf
            subst hf
            refine ⟨_, happ _, rfl, by simp [Fn.id, hc.1], by rw [hb]; simp, ?_⟩
            intro b' j' hb' hj'
            rw [hb, Option.some.injEq] at hb'
            subst hb'
            have : j' = j := by rw [← hidx b j' hj', hidx b j hjb]
            subst this
            exact ⟨acc[j'], by rw [List.getElem?_append_left hjl, List.getElem?_eq_getElem hjl], rfl⟩
    obtain ⟨g, hg, hcg⟩ := hstep
    rw [hg]
    exact ih (m + 1) _ (by omega) hcg

/-- **C19, round trip.** Writing all the functions of a safe list and reading them back always
succeeds and yields new objects of the same classes and metadata, built on one another in the same
way (the base of the copy of `f` is the copy of the base of `f`). -/
theorem c19_write_read (fs : List (Fn D)) (k : ℕ) :
    ∃ recs gs, writeAll (safefunctionlist fs) = .ok recs ∧ readAll k recs [] = .ok gs ∧
      CopyUpTo k (safefunctionlist fs).length (safefunctionlist fs) gs := by
  obtain ⟨hn, hb, -⟩ := c19_safefunctionlist fs
  obtain ⟨gs, h1, h2⟩ := readAll_spec hn hb k (safefunctionlist fs).length 0 [] (by omega)
    ⟨rfl, by intro i f hi; omega⟩
  exact ⟨_, gs, writeAll_eq hb, by simpa using h1, h2⟩

/-- Non-trivial instance: ripples over GaussianOverR come back over the new GaussianOverR. -/
example : (writeAll (safefunctionlist
      [Fn.over 1 "TerminationRipples" (.prim 0 "GaussianOverR"), .prim 0 "GaussianOverR"]) >>=
      fun recs => readAll 10 recs []) =
    .ok [.prim 10 "GaussianOverR", .over 11 "TerminationRipples" (.prim 10 "GaussianOverR")] := by
  decide

/-- **C19, missing base.** Writing a function against a list that lacks its base raises ValueError;
and reading a record whose base index is exactly the number of functions read so far raises
IndexError, not the intended ValueError (the bound test is off by one). -/
theorem c19_missing_base (i : ℕ) (d : D) (b : Fn D) (l : List (Fn D)) (hb : b ∉ l) (k : ℕ) :
    writestr (.over i d b) l = .error .value ∧
    factory ⟨d, some l.length⟩ l k = .error .index ∧
    ∀ idx, l.length < idx → factory ⟨d, some idx⟩ l k = .error .value := by
  refine ⟨by simp [writestr, Fn.base?, hb], by simp [factory], ?_⟩
  intro idx h
  simp [factory, h]

/-! ### Constructor validation -/

/-- **C21, constructor.** A function's constructor accepts a parameter dictionary exactly when its
values are a bijection between the keys and `0, …, n-1`, both default formats are declared and all
default formats are among the function's formats. -/
theorem c21_init_accepts_iff (dict : List (String × ℤ)) (parformats : List String)
    (defaults : List (String × String)) :
    initCheck dict parformats defaults = .ok () ↔
      ((dict.map Prod.snd).Nodup ∧
        ∀ v : ℤ, v ∈ dict.map Prod.snd ↔ 0 ≤ v ∧ v < dict.length) ∧
      ("default_input" ∈ defaults.map Prod.fst ∧ "default_output" ∈ defaults.map Prod.fst) ∧
      ∀ f ∈ defaults.map Prod.snd, f ∈ parformats := by
  have hsort : (dict.map Prod.snd).mergeSort (fun a b => decide (a ≤ b)) =
      (List.range dict.length).map (fun (i : ℕ) => (i : ℤ)) ↔
      ((dict.map Prod.snd).Nodup ∧
        ∀ v : ℤ, v ∈ dict.map Prod.snd ↔ 0 ≤ v ∧ v < dict.length) := by
    have hmem : ∀ v : ℤ, v ∈ (List.range dict.length).map (fun (i : ℕ) => (i : ℤ)) ↔
        0 ≤ v ∧ v < dict.length := by
      intro v
      simp only [List.mem_map, List.mem_range]
      constructor
      · rintro ⟨a, ha, rfl⟩; omega
      · rintro ⟨h1, h2⟩; exact ⟨v.toNat, by omega, by omega⟩
    have hnd : ((List.range dict.length).map (fun (i : ℕ) => (i : ℤ))).Nodup :=
      List.nodup_range.map (fun a b h => by exact_mod_cast h)
    constructor
    · intro h
      have hp : ((List.range dict.length).map (fun (i : ℕ) => (i : ℤ))).Perm (dict.map Prod.snd) := by
        rw [← h]; exact List.mergeSort_perm _ _
      refine ⟨(hp.nodup_iff).1 hnd, fun v => ?_⟩
      rw [← hp.mem_iff, hmem]
    · rintro ⟨h1, h2⟩
      have hp : (dict.map Prod.snd).Perm ((List.range dict.length).map (fun (i : ℕ) => (i : ℤ))) := by
        rw [List.perm_ext_iff_of_nodup h1 hnd]
        intro v; rw [h2, hmem]
      have hp' := (List.mergeSort_perm (dict.map Prod.snd) (fun a b => decide (a ≤ b))).trans hp
      refine List.Perm.eq_of_pairwise (le := fun a b : ℤ => a ≤ b) (fun a b _ _ h1 h2 => le_antisymm h1 h2) ?_ ?_ hp'
      · have := List.pairwise_mergeSort (le := fun a b : ℤ => decide (a ≤ b))
          (by intro a b c h1 h2; simp only [decide_eq_true_eq] at *; omega)
          (by intro a b; simp only [Bool.or_eq_true, decide_eq_true_eq]; omega) (dict.map Prod.snd)
        simpa using this
      · rw [List.pairwise_map]
        exact List.pairwise_lt_range.imp (by intro a b h; omega)
  unfold initCheck
  simp only [ne_eq]
  by_cases h1 : (dict.map Prod.snd).mergeSort (fun a b => decide (a ≤ b)) =
      (List.range dict.length).map (fun (i : ℕ) => (i : ℤ))
  · rw [if_neg (not_not.2 h1)]
    by_cases h2 : "default_input" ∈ defaults.map Prod.fst ∧ "default_output" ∈ defaults.map Prod.fst
    · rw [if_neg (not_not.2 h2)]
      by_cases h3 : ∀ f ∈ defaults.map Prod.snd, f ∈ parformats
      · rw [if_neg (not_not.2 h3)]
        exact ⟨fun _ => ⟨hsort.1 h1, h2, h3⟩, fun _ => rfl⟩
      · rw [if_pos h3]
        exact ⟨fun h => by simp at h, fun h => absurd h.2.2 h3⟩
    · rw [if_pos h2]
      exact ⟨fun h => by simp at h, fun h => absurd h.2.1 h2⟩
  · rw [if_pos h1]
    exact ⟨fun h => by simp at h, fun h => absurd (hsort.2 h.1) h1⟩

/-- Non-trivial instance: the Gaussian's dictionary is accepted; a repeated index is not. -/
example : initCheck [("position", 0), ("width", 1), ("area", 2)] ["internal", "pwa"]
      [("default_input", "internal"), ("default_output", "pwa")] = .ok () ∧
    initCheck [("position", 0), ("width", 1), ("area", 1)] ["internal", "pwa"]
      [("default_input", "internal"), ("default_output", "pwa")] ≠ .ok () := by
  constructor
  · rw [c21_init_accepts_iff]
    refine ⟨⟨by decide, fun v => ?_⟩, by decide, by decide⟩
    simp; omega
  · rw [Ne, c21_init_accepts_iff]
    intro h
    exact absurd h.1.1 (by decide)

/-! ### C21: formats -/

/-- A function's formats as its constructor guarantees them, none of them literally named
`default_input` or `default_output`. -/
structure Proper (F : Formats) : Prop where
  defIn : F.defIn ∈ F.parformats
  defOut : F.defOut ∈ F.parformats
  noIn : "default_input" ∉ F.parformats
  noOut : "default_output" ∉ F.parformats

/-- **C21.** `None` means the default input format for the input side and the default output format
for the output side; the two generic names mean the same on both sides; a concrete format means
itself. -/
theorem c21_resolution {F : Formats} (h : Proper F) :
    resolveIn F none = F.defIn ∧ resolveOut F none = F.defOut ∧
    resolveIn F (some "default_input") = F.defIn ∧ resolveOut F (some "default_input") = F.defIn ∧
    resolveIn F (some "default_output") = F.defOut ∧ resolveOut F (some "default_output") = F.defOut ∧
    ∀ s ∈ F.parformats, resolveIn F (some s) = s ∧ resolveOut F (some s) = s := by
  have ne : ∀ s ∈ F.parformats, s ≠ "default_input" ∧ s ≠ "default_output" := by
    intro s hs
    exact ⟨fun e => h.noIn (e ▸ hs), fun e => h.noOut (e ▸ hs)⟩
  have hi := ne _ h.defIn
  have ho := ne _ h.defOut
  refine ⟨?_, ?_, ?_, ?_, ?_, ?_, ?_⟩
  · simp [resolveIn, hi]
  · simp [resolveOut, ho]
  · simp [resolveIn]
  · simp [resolveOut]
  · simp [resolveIn]
  · simp [resolveOut]
  · intro s hs; simp [resolveIn, resolveOut, ne s hs]

/-- **C21.** A request is rejected with ValueError exactly when a given name is neither generic nor
one of the function's formats; between equal formats the derivative matrix is the identity. -/
theorem c21_transform {K : Type} [Zero K] [One K] {F : Formats} (h : Proper F) (n : ℕ)
    (raw : List K → String → String → Res (List (List K)))
    (rawp : List K → String → String → Res (List K)) (pars : List K) (inF outF : Option String) :
    (∀ s, (inF = some s ∨ outF = some s) → s ∉ F.parformats → s ≠ "default_input" →
      s ≠ "default_output" →
      transformDerivatives F n raw pars inF outF = .error .value ∧
      transformParameters F rawp pars inF outF = .error .value) ∧
    ((∀ s, (inF = some s ∨ outF = some s) →
        s ∈ F.parformats ∨ s = "default_input" ∨ s = "default_output") →
      transformParameters F rawp pars inF outF = rawp pars (resolveIn F inF) (resolveOut F outF) ∧
      (resolveIn F inF = resolveOut F outF →
        transformDerivatives F n raw pars inF outF = .ok (identity n)) ∧
      (resolveIn F inF ≠ resolveOut F outF →
        transformDerivatives F n raw pars inF outF =
          raw pars (resolveIn F inF) (resolveOut F outF))) := by
  obtain ⟨h1, h2, h3, h4, h5, h6, h7⟩ := c21_resolution h
  constructor
  · intro s hs hnot hni hno
    rcases hs with rfl | rfl
    · have : resolveIn F (some s) = s := by simp [resolveIn, hni, hno]
      simp [transformDerivatives, transformParameters, this, hnot]
    · have : resolveOut F (some s) = s := by simp [resolveOut, hni, hno]
      simp [transformDerivatives, transformParameters, this, hnot]
  · intro hall
    have hin : resolveIn F inF ∈ F.parformats := by
      cases inF with
      | none => rw [h1]; exact h.defIn
      | some s =>
        rcases hall s (.inl rfl) with hs | rfl | rfl
        · rw [(h7 s hs).1]; exact hs
        · rw [h3]; exact h.defIn
        · rw [h5]; exact h.defOut
    have hout : resolveOut F outF ∈ F.parformats := by
      cases outF with
      | none => rw [h2]; exact h.defOut
      | some s =>
        rcases hall s (.inr rfl) with hs | rfl | rfl
        · rw [(h7 s hs).2]; exact hs
        · rw [h4]; exact h.defIn
        · rw [h6]; exact h.defOut
    refine ⟨by simp [transformParameters, hin, hout], ?_, ?_⟩
    · intro e
      simp only [transformDerivatives]
      rw [if_neg (by simpa using hin), if_neg (by simpa using hout), if_pos e]
    · intro e
      simp only [transformDerivatives]
      rw [if_neg (by simpa using hin), if_neg (by simpa using hout), if_neg e]

/-- Non-trivial instance: the formats of GaussianOverR. -/
example : Proper ⟨["internal", "pwa", "mu_sigma_area"], "internal", "pwa"⟩ := by
  constructor <;> decide

/-! ### C20: range restriction -/

variable {K : Type} [MulZeroClass K]

/-- **C20.** For a function evaluated pointwise (`g pars` at each `r`), restricting to a slice gives
the unrestricted value at the indices in the slice, zero elsewhere, and an array as long as `r`. -/
theorem c20_value (g : List K → K → K) (pars r : List K) (rng : Option (ℕ × ℕ)) :
    ∃ out, value (fun p l => l.map (g p)) pars r rng = .ok out ∧ out.length = r.length ∧
      ∀ i x, r[i]? = some x → out[i]? = some
        (if (bounds r.length rng).1 ≤ i ∧ i < (bounds r.length rng).2 then g pars x else 0) := by
  obtain ⟨out, h1, h2, h3⟩ := setSlice_ok (r.map (· * 0)) rng ((getSlice r rng).map (g pars))
    (by rw [List.length_map, length_getSlice, length_getSlice, List.length_map])
  refine ⟨out, h1, by simpa using h2, ?_⟩
  intro i x hx
  rw [h3, List.length_map]
  split
  · rename_i hi
    rw [List.getElem?_map, getElem?_getSlice r rng i hi.1 hi.2, hx]
    rfl
  · rw [List.getElem?_map, hx]; simp

theorem mapM_ok {α β : Type} {f : α → Res β} {l : List α} {P : α → β → Prop}
    (h : ∀ a ∈ l, ∃ b, f a = .ok b ∧ P a b) :
    ∃ out, l.mapM f = (.ok out : Res (List β)) ∧ out.length = l.length ∧
      ∀ (i : ℕ) a, l[i]? = some a → ∃ b, out[i]? = some b ∧ P a b := by
  induction l with
  | nil => exact ⟨[], rfl, rfl, by simp⟩
  | cons a l ih =>
    obtain ⟨b, hb, hp⟩ := h a (by simp)
    obtain ⟨out, h1, h2, h3⟩ := ih (fun c hc => h c (by simp [hc]))
    refine ⟨b :: out, ?_, by simp [h2], ?_⟩
    · rw [List.mapM_cons, hb, h1]; rfl
    · intro i c hc
      cases i with
      | zero =>
        simp only [List.getElem?_cons_zero, Option.some.injEq] at hc
        subst hc; exact ⟨b, rfl, hp⟩
      | succ i =>
        simp only [List.getElem?_cons_succ] at hc ⊢
        exact h3 i c hc

/-- **C20, Jacobian.** Likewise for each Jacobian row of a function whose raw Jacobian has one row
per parameter: `None` for a fixed parameter, otherwise the derivative `g pars k` at each `r`.  The
result has one entry per parameter: `None` exactly for the fixed ones, and otherwise the unrestricted
derivative masked by the slice. -/
theorem c20_jacobian (g : List K → ℕ → K → K) (pars r : List K) (free : List Bool)
    (rng : Option (ℕ × ℕ)) :
    ∃ out, jacobian (fun p l fr => fr.mapIdx
        (fun k b => if b then some (l.map (g p k)) else none)) pars r free rng = .ok out ∧
      out.length = free.length ∧
      ∀ k b, free[k]? = some b → ∃ row, out[k]? = some row ∧ (row = none ↔ b = false) ∧
        ∀ v, row = some v → v.length = r.length ∧ ∀ i x, r[i]? = some x → v[i]? = some
          (if (bounds r.length rng).1 ≤ i ∧ i < (bounds r.length rng).2 then g pars k x else 0) := by
  have hval := fun k => c20_value (fun p => g p k) pars r rng
  unfold jacobian
  obtain ⟨out, h1, h2, h3⟩ := mapM_ok
    (l := free.mapIdx (fun k b => if b then some ((getSlice r rng).map (g pars k)) else none))
    (f := fun row => match row with
      | none => (.ok none : Res (Option (List K)))
      | some v => (setSlice (r.map (· * 0)) rng v).map some)
    (P := fun a row => (a = none ↔ row = none) ∧ ∀ k, a = some ((getSlice r rng).map (g pars k)) →
      ∀ v, row = some v → v.length = r.length ∧ ∀ i x, r[i]? = some x → v[i]? = some
          (if (bounds r.length rng).1 ≤ i ∧ i < (bounds r.length rng).2 then g pars k x else 0))
    (by
      intro a ha
      cases a with
      | none => exact ⟨none, rfl, by simp, by simp⟩
      | some w =>
        have : ∃ k, w = (getSlice r rng).map (g pars k) := by
          rw [List.mem_mapIdx] at ha
          obtain ⟨k, hk, e⟩ := ha
          split at e
          · simp only [Option.some.injEq] at e; exact ⟨k, e.symm⟩
          · simp at e
        obtain ⟨k, rfl⟩ := this
        obtain ⟨o, ho, -⟩ := hval k
        refine ⟨some o, ?_, by simp, ?_⟩
        · simp only [value] at ho
          simp only [ho, Except.map]
        · intro k' hk' v hv
          simp only [Option.some.injEq] at hk' hv
          subst hv
          obtain ⟨o', ho', hl, hx⟩ := hval k'
          simp only [value] at ho ho'
          rw [← hk', ho, Except.ok.injEq] at ho'
          subst ho'
          exact ⟨hl, hx⟩)
  refine ⟨out, h1, by simpa using h2, ?_⟩
  intro k b hb
  obtain ⟨row, hr, hp, hq⟩ := h3 k (if b then some ((getSlice r rng).map (g pars k)) else none) (by
    rw [List.getElem?_mapIdx, hb]; rfl)
  refine ⟨row, hr, by rw [← hp]; cases b <;> simp, ?_⟩
  intro v hv
  cases b with
  | false =>
    exfalso
    have := hp.1 (by simp)
    rw [this] at hv; simp at hv
  | true => exact hq k (by simp) v hv

/-- Non-trivial instance: a linear function on four points restricted to the middle two. -/
example : value (K := ℚ) (fun p l => l.map (fun x => p.getD 0 0 * x)) [3] [1, 2, 4, 5] (some (1, 3)) =
    .ok [0, 6, 12, 0] := by
  simp [value, setSlice, getSlice, bounds]; norm_num

end Verif.Function
