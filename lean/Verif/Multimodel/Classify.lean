import Verif.Multimodel.Model
import Mathlib.Tactic.Linarith
import Mathlib.Tactic.NormNum

/-!
# C44: classification of models
-/

namespace Verif.Multimodel

open Verif.Py

set_option linter.unusedSectionVars false

variable {K : Type}

/-! ### Specification -/

/-- Two parts that `classify` regards as alike: same Python class, same number of parameters, and sums of squared
values that differ by at most the fraction `tol` of either. -/
structure AlikePart [Field K] [LinearOrder K] (tol : K) (p e : MPart K) : Prop where
  cls : p.cls = e.cls
  npars : p.npars = e.npars
  val1 : |(p.val.map (· ^ 2)).sum - (e.val.map (· ^ 2)).sum| ≤ tol * (e.val.map (· ^ 2)).sum
  val2 : |(p.val.map (· ^ 2)).sum - (e.val.map (· ^ 2)).sum| ≤ tol * (p.val.map (· ^ 2)).sum

/-- Two models with alike baselines and, one by one, alike peaks. -/
structure Alike [Field K] [LinearOrder K] (tol : K) (m e : Model K) : Prop where
  baseline : AlikePart tol m.baseline e.baseline
  peaks : List.Forall₂ (AlikePart tol) m.peaks e.peaks

section

variable [Field K] [LinearOrder K] [IsStrictOrderedRing K]

theorem sum_zipWith_sub (a b : List K) (h : a.length = b.length) :
    (List.zipWith (· - ·) a b).sum = a.sum - b.sum := by
  induction a generalizing b with
  | nil =>
    cases b with
    | nil => simp
    | cons _ _ => simp at h
  | cons x a ih =>
    cases b with
    | nil => simp at h
    | cons y b =>
      simp only [List.zipWith_cons_cons, List.sum_cons]
      rw [ih b (by simpa using h)]
      ring

theorem close_iff (tol : K) (p e : MPart K) (h : p.val.length = e.val.length) :
    close tol (sq p) (sq e) = true ↔
      |(p.val.map (· ^ 2)).sum - (e.val.map (· ^ 2)).sum| ≤ tol * (e.val.map (· ^ 2)).sum ∧
      |(p.val.map (· ^ 2)).sum - (e.val.map (· ^ 2)).sum| ≤ tol * (p.val.map (· ^ 2)).sum := by
  unfold close sq
  rw [sum_zipWith_sub _ _ (by simpa using h)]
  simp [not_lt]

/-- All values are taken at the same points. -/
def SameGrid (n : ℕ) (m : Model K) : Prop := m.baseline.val.length = n ∧ ∀ p ∈ m.peaks, p.val.length = n

theorem same_iff (tol : K) (n : ℕ) (m e : Model K) (hm : SameGrid n m) (he : SameGrid n e) :
    same tol m e = true ↔ Alike tol m e := by
  have peaks : ∀ (ps es : List (MPart K)), (∀ p ∈ ps, p.val.length = n) → (∀ p ∈ es, p.val.length = n) →
      ((ps.length = es.length ∧
        (ps.zip es).any (fun pe => decide (pe.1.cls ≠ pe.2.cls) || decide (pe.1.npars ≠ pe.2.npars)) = false ∧
        (ps.zip es).any (fun pe => !close tol (sq pe.1) (sq pe.2)) = false) ↔
      List.Forall₂ (AlikePart tol) ps es) := by
    intro ps
    induction ps with
    | nil =>
      intro es _ _
      cases es with
      | nil => simp
      | cons _ _ => simp
    | cons p ps ih =>
      intro es h1 h2
      cases es with
      | nil => simp
      | cons q es =>
        have i := ih es (fun p hp => h1 p (List.mem_cons_of_mem _ hp)) (fun p hp => h2 p (List.mem_cons_of_mem _ hp))
        rw [List.forall₂_cons, ← i]
        have c := close_iff tol p q (by rw [h1 p List.mem_cons_self, h2 q List.mem_cons_self])
        simp only [List.zip_cons_cons, List.any_cons, List.length_cons, Nat.add_right_cancel_iff,
          Bool.or_eq_false_iff, Bool.not_eq_false', decide_eq_false_iff_not, not_not, c]
        constructor
        · rintro ⟨a, ⟨⟨b1, b2⟩, b3⟩, ⟨c1, c2⟩, c3⟩
          exact ⟨⟨b1, b2, c1, c2⟩, a, b3, c3⟩
        · rintro ⟨⟨b1, b2, c1, c2⟩, a, b3, c3⟩
          exact ⟨a, ⟨⟨b1, b2⟩, b3⟩, ⟨c1, c2⟩, c3⟩
  have hb := close_iff tol m.baseline e.baseline (by rw [hm.1, he.1])
  have hp := peaks m.peaks e.peaks hm.2 he.2
  constructor
  · intro h
    unfold same at h
    by_cases h1 : m.baseline.cls ≠ e.baseline.cls
    · simp [h1] at h
    by_cases h2 : m.baseline.npars ≠ e.baseline.npars
    · simp [h2] at h
    by_cases h3 : m.peaks.length ≠ e.peaks.length
    · simp [h3] at h
    rw [if_neg h1, if_neg h2, if_neg h3] at h
    cases h4 : (m.peaks.zip e.peaks).any (fun pe => decide (pe.1.cls ≠ pe.2.cls) || decide (pe.1.npars ≠ pe.2.npars))
    case true => rw [if_pos h4] at h; exact absurd h (by simp)
    cases h5 : (m.peaks.zip e.peaks).any (fun pe => !close tol (sq pe.1) (sq pe.2))
    case true => rw [if_neg (by rw [h4]; simp), if_pos h5] at h; exact absurd h (by simp)
    rw [if_neg (by rw [h4]; simp), if_neg (by rw [h5]; simp)] at h
    have := hb.1 h
    exact ⟨⟨not_not.1 h1, not_not.1 h2, this.1, this.2⟩, hp.1 ⟨not_not.1 h3, h4, h5⟩⟩
  · rintro ⟨⟨h1, h2, h3, h4⟩, h5⟩
    obtain ⟨a, b, c⟩ := hp.2 h5
    unfold same
    rw [if_neg (by simpa using h1), if_neg (by simpa using h2), if_neg (by simpa using a),
      if_neg (by rw [b]; simp), if_neg (by rw [c]; simp)]
    exact hb.2 ⟨h3, h4⟩

/-- Being alike is symmetric. -/
theorem AlikePart.symm {tol : K} {p e : MPart K} (h : AlikePart tol p e) : AlikePart tol e p :=
  ⟨h.cls.symm, h.npars.symm, by rw [abs_sub_comm]; exact h.val2, by rw [abs_sub_comm]; exact h.val1⟩

theorem Alike.symm {tol : K} {m e : Model K} (h : Alike tol m e) : Alike tol e m :=
  ⟨h.baseline.symm, h.peaks.flip.imp (fun _ _ h => AlikePart.symm h)⟩

end

/-! ### The loop -/

theorem findClass_some {test : ℕ → Bool} {cl : List (List ℕ)} {k c : ℕ} (h : findClass test cl k = some c) :
    ∃ cls, k ≤ c ∧ cl[c - k]? = some cls ∧ test (cls.headD 0) = true ∧
      ∀ (c' : ℕ) cls', k ≤ c' → c' < c → cl[c' - k]? = some cls' → test (cls'.headD 0) = false := by
  induction cl generalizing k with
  | nil => simp [findClass] at h
  | cons a cl ih =>
    rw [findClass] at h
    by_cases ht : test (a.headD 0) = true
    · rw [if_pos ht, Option.some.injEq] at h
      subst h
      exact ⟨a, le_rfl, by simp, ht, fun c' _ h1 h2 _ => absurd h2 (by omega)⟩
    · rw [if_neg ht] at h
      obtain ⟨cls, h1, h2, h3, h4⟩ := ih h
      refine ⟨cls, by omega, ?_, h3, ?_⟩
      · rw [show c - k = (c - (k + 1)) + 1 by omega, List.getElem?_cons_succ]; exact h2
      · intro c' cls' g1 g2 g3
        by_cases e : c' = k
        · subst e
          rw [Nat.sub_self, List.getElem?_cons_zero, Option.some.injEq] at g3
          subst g3
          simpa using ht
        · rw [show c' - k = (c' - (k + 1)) + 1 by omega, List.getElem?_cons_succ] at g3
          exact h4 c' cls' (by omega) g2 g3

theorem findClass_none {test : ℕ → Bool} {cl : List (List ℕ)} {k : ℕ} (h : findClass test cl k = none) :
    ∀ cls ∈ cl, test (cls.headD 0) = false := by
  induction cl generalizing k with
  | nil => simp
  | cons a cl ih =>
    rw [findClass] at h
    by_cases ht : test (a.headD 0) = true
    · rw [if_pos ht] at h; exact absurd h (by simp)
    · rw [if_neg ht] at h
      intro cls hc
      rcases List.mem_cons.1 hc with rfl | hc
      · simpa using ht
      · exact ih h cls hc

/-- What holds after the first `n` models. -/
structure ClassInv (test : ℕ → ℕ → Bool) (n : ℕ) (classes : List (List ℕ)) (idx : List (ℕ × ℕ)) : Prop where
  perm : classes.flatten.Perm (List.range n)
  inc : ∀ cls ∈ classes, cls ≠ [] ∧ cls.Pairwise (· < ·)
  look : ∀ i c, classOf idx i = some c ↔ ∃ cls, classes[c]? = some cls ∧ i ∈ cls
  alike : ∀ cls ∈ classes, ∀ i ∈ cls, i = cls.headD 0 ∨ test i (cls.headD 0) = true
  first : ∀ (c c' : ℕ) cls cls' i, c' < c → classes[c]? = some cls → classes[c']? = some cls' → i ∈ cls →
    test i (cls'.headD 0) = false

theorem classOf_cons (idx : List (ℕ × ℕ)) (i c j : ℕ) :
    classOf ((i, c) :: idx) j = if i = j then some c else classOf idx j := by
  unfold classOf
  rw [List.find?_cons]
  by_cases h : i = j
  · simp [h]
  · have : (i == j) = false := by simpa using h
    simp [h, this]

theorem headD_append {l : List ℕ} (h : l ≠ []) (i : ℕ) : (l ++ [i]).headD 0 = l.headD 0 := by
  cases l with
  | nil => exact absurd rfl h
  | cons a l => rfl

theorem flatten_modify_perm (classes : List (List ℕ)) (c i : ℕ) (h : c < classes.length) :
    (classes.modify c (fun cls => cls ++ [i])).flatten.Perm (classes.flatten ++ [i]) := by
  induction classes generalizing c with
  | nil => simp at h
  | cons a cl ih =>
    cases c with
    | zero =>
      simp only [List.modify_zero_cons, List.flatten_cons, List.append_assoc]
      apply List.Perm.append_left
      exact List.perm_append_comm
    | succ c =>
      simp only [List.modify_succ_cons, List.flatten_cons, List.append_assoc]
      apply List.Perm.append_left
      exact ih c (by simpa using h)

theorem inv_step {test : ℕ → ℕ → Bool} {n : ℕ} {classes : List (List ℕ)} {idx : List (ℕ × ℕ)}
    (h : ClassInv test n classes idx) :
    ClassInv test (n + 1) (classifyStep test (classes, idx) n).1 (classifyStep test (classes, idx) n).2 := by
  have hlt : ∀ (c : ℕ) cls i, classes[c]? = some cls → i ∈ cls → i < n := by
    intro c cls i hc hi
    have : i ∈ classes.flatten := List.mem_flatten.2 ⟨cls, List.mem_of_getElem? hc, hi⟩
    simpa using h.perm.subset this
  unfold classifyStep
  simp only
  cases hf : findClass (test n) classes 0 with
  | none =>
    have hn := findClass_none hf
    have get : ∀ (c : ℕ) cls, (classes ++ [[n]])[c]? = some cls ↔
        (classes[c]? = some cls ∨ (c = classes.length ∧ cls = [n])) := by
      intro c cls
      rcases Nat.lt_trichotomy c classes.length with hc | hc | hc
      · rw [List.getElem?_append_left hc]
        constructor
        · exact Or.inl
        · rintro (h | ⟨h, -⟩)
          · exact h
          · omega
      · subst hc
        rw [List.getElem?_append_right le_rfl, Nat.sub_self, List.getElem?_eq_none le_rfl]
        simp [eq_comm]
      · rw [List.getElem?_eq_none (by simp; omega), List.getElem?_eq_none (by omega)]
        simp; omega
    refine ⟨?_, ?_, ?_, ?_, ?_⟩
    · rw [List.flatten_append, List.range_succ]
      exact h.perm.append (by simp)
    · intro cls hc
      rcases List.mem_append.1 hc with hc | hc
      · exact h.inc cls hc
      · simp at hc; subst hc; simp
    · intro i c
      rw [classOf_cons]
      by_cases e : n = i
      · subst e
        rw [if_pos rfl, Option.some.injEq]
        constructor
        · rintro rfl
          exact ⟨[n], (get _ _).2 (.inr ⟨rfl, rfl⟩), by simp⟩
        · rintro ⟨cls, hc, hi⟩
          rcases (get _ _).1 hc with hc | ⟨hc, -⟩
          · exact absurd (hlt c cls n hc hi) (lt_irrefl _)
          · exact hc.symm
      · rw [if_neg e, h.look i c]
        constructor
        · rintro ⟨cls, hc, hi⟩
          exact ⟨cls, (get _ _).2 (.inl hc), hi⟩
        · rintro ⟨cls, hc, hi⟩
          rcases (get _ _).1 hc with hc | ⟨-, rfl⟩
          · exact ⟨cls, hc, hi⟩
          · simp at hi; exact absurd hi.symm e
    · intro cls hc i hi
      rcases List.mem_append.1 hc with hc | hc
      · exact h.alike cls hc i hi
      · simp at hc; subst hc; left; simpa using hi
    · intro c c' cls cls' i hlt' hc hc' hi
      rcases (get _ _).1 hc with hc | ⟨rfl, rfl⟩
      · rcases (get _ _).1 hc' with hc' | ⟨rfl, rfl⟩
        · exact h.first c c' cls cls' i hlt' hc hc' hi
        · have := (List.getElem?_eq_some_iff.1 hc).1
          omega
      · simp at hi
        subst hi
        rcases (get _ _).1 hc' with hc' | ⟨rfl, rfl⟩
        · exact hn cls' (List.mem_of_getElem? hc')
        · omega
  | some c0 =>
    obtain ⟨cls0, -, hc0, ht, hfirst⟩ := findClass_some hf
    rw [Nat.sub_zero] at hc0
    have hc0l := (List.getElem?_eq_some_iff.1 hc0).1
    have h0 := h.inc cls0 (List.mem_of_getElem? hc0)
    have get : ∀ (c : ℕ) cls, (classes.modify c0 (fun cls => cls ++ [n]))[c]? = some cls ↔
        (c ≠ c0 ∧ classes[c]? = some cls ∨ (c = c0 ∧ cls = cls0 ++ [n])) := by
      intro c cls
      rw [List.getElem?_modify]
      by_cases e : c0 = c
      · subst e
        rw [hc0]
        simp [eq_comm]
      · simp [e, Ne.symm e]
    have mem : ∀ cls, cls ∈ classes.modify c0 (fun cls => cls ++ [n]) →
        cls ∈ classes ∨ cls = cls0 ++ [n] := by
      intro cls hc
      obtain ⟨c, hc⟩ := List.getElem?_of_mem hc
      rcases (get c cls).1 hc with ⟨-, hc⟩ | ⟨-, hc⟩
      · exact .inl (List.mem_of_getElem? hc)
      · exact .inr hc
    have head0 := headD_append h0.1 n
    refine ⟨?_, ?_, ?_, ?_, ?_⟩
    · rw [List.range_succ]
      exact (flatten_modify_perm classes c0 n hc0l).trans (h.perm.append_right _)
    · intro cls hc
      rcases mem cls hc with hc | rfl
      · exact h.inc cls hc
      · refine ⟨by simp, ?_⟩
        rw [List.pairwise_append]
        refine ⟨h0.2, by simp, ?_⟩
        intro a ha b hb
        simp at hb; subst hb
        exact hlt c0 cls0 a hc0 ha
    · intro i c
      rw [classOf_cons]
      by_cases e : n = i
      · subst e
        rw [if_pos rfl, Option.some.injEq]
        constructor
        · rintro rfl
          exact ⟨_, (get _ _).2 (.inr ⟨rfl, rfl⟩), by simp⟩
        · rintro ⟨cls, hc, hi⟩
          rcases (get _ _).1 hc with ⟨-, hc⟩ | ⟨hc, -⟩
          · exact absurd (hlt c cls n hc hi) (lt_irrefl _)
          · exact hc.symm
      · rw [if_neg e, h.look i c]
        constructor
        · rintro ⟨cls, hc, hi⟩
          by_cases e' : c = c0
          · subst e'
            rw [hc0, Option.some.injEq] at hc
            subst hc
            exact ⟨_, (get _ _).2 (.inr ⟨rfl, rfl⟩), List.mem_append_left _ hi⟩
          · exact ⟨cls, (get _ _).2 (.inl ⟨e', hc⟩), hi⟩
        · rintro ⟨cls, hc, hi⟩
          rcases (get _ _).1 hc with ⟨-, hc⟩ | ⟨rfl, rfl⟩
          · exact ⟨cls, hc, hi⟩
          · rcases List.mem_append.1 hi with hi | hi
            · exact ⟨cls0, hc0, hi⟩
            · simp at hi; exact absurd hi.symm e
    · intro cls hc i hi
      rcases mem cls hc with hc | rfl
      · exact h.alike cls hc i hi
      · rw [head0]
        rcases List.mem_append.1 hi with hi | hi
        · exact h.alike cls0 (List.mem_of_getElem? hc0) i hi
        · simp at hi; subst hi; exact .inr ht
    · intro c c' cls cls' i hlt' hc hc' hi
      have hd : ∃ cls1, classes[c']? = some cls1 ∧ cls'.headD 0 = cls1.headD 0 := by
        rcases (get _ _).1 hc' with ⟨-, hc'⟩ | ⟨rfl, rfl⟩
        · exact ⟨cls', hc', rfl⟩
        · exact ⟨cls0, hc0, head0⟩
      obtain ⟨cls1, hc1, hd⟩ := hd
      rw [hd]
      rcases (get _ _).1 hc with ⟨-, hc⟩ | ⟨rfl, rfl⟩
      · exact h.first c c' cls cls1 i hlt' hc hc1 hi
      · rcases List.mem_append.1 hi with hi | hi
        · exact h.first c c' cls0 cls1 i hlt' hc0 hc1 hi
        · simp at hi
          subst hi
          exact hfirst c' cls1 (Nat.zero_le _) hlt' (by rw [Nat.sub_zero]; exact hc1)

theorem inv_loop (test : ℕ → ℕ → Bool) (n : ℕ) :
    ClassInv test n (classifyLoop test n).1 (classifyLoop test n).2 := by
  induction n with
  | zero =>
    refine ⟨by simp [classifyLoop], by simp [classifyLoop], ?_, by simp [classifyLoop], by simp [classifyLoop]⟩
    intro i c
    simp [classifyLoop, classOf]
  | succ n ih =>
    have : classifyLoop test (n + 1) = classifyStep test ((classifyLoop test n).1, (classifyLoop test n).2) n := by
      unfold classifyLoop
      rw [List.range_succ, List.foldl_append]
      rfl
    rw [this]
    exact inv_step ih

variable [Field K] [LinearOrder K] [IsStrictOrderedRing K]

/-- **C44.** Classification, for any list of models evaluated on one grid and any tolerance:
every model is in exactly one class, and `classes_idx` tells which; no class is empty; the models of a class are in
order, the first one is its exemplar; every other model of the class is alike its exemplar, and none is alike the exemplar
of an earlier class (so it is in the first class that fits); in particular no two exemplars are alike. -/
theorem c44_classify (tol : K) (results : List (Model K)) (n : ℕ) (hg : ∀ m ∈ results, SameGrid n m) :
    let classes := (classify tol results).1
    classes.flatten.Perm (List.range results.length) ∧
    (∀ i c, classOf (classify tol results).2 i = some c ↔ ∃ cls, classes[c]? = some cls ∧ i ∈ cls) ∧
    ∀ (c : ℕ) cls, classes[c]? = some cls → ∃ e em, cls.head? = some e ∧ results[e]? = some em ∧ cls.Pairwise (· < ·) ∧
      (∀ i ∈ cls, ∃ m, results[i]? = some m ∧ (i = e ∨ Alike tol m em) ∧
        ∀ (c' : ℕ) cls' e' em', c' < c → classes[c']? = some cls' → cls'.head? = some e' → results[e']? = some em' →
          ¬ Alike tol m em') := by
  intro classes
  have inv : ClassInv _ _ classes _ := inv_loop _ results.length
  refine ⟨inv.perm, inv.look, ?_⟩
  have hlt : ∀ cls ∈ classes, ∀ i ∈ cls, i < results.length := by
    intro cls hc i hi
    have : i ∈ classes.flatten := List.mem_flatten.2 ⟨cls, hc, hi⟩
    simpa using inv.perm.subset this
  intro c cls hc
  have hcm := List.mem_of_getElem? hc
  obtain ⟨hne, hinc⟩ := inv.inc cls hcm
  obtain ⟨e, he⟩ : ∃ e, cls.head? = some e := by
    cases cls with
    | nil => exact absurd rfl hne
    | cons a l => exact ⟨a, rfl⟩
  have hd : ∀ (l : List ℕ) a, l.head? = some a → l.headD 0 = a := by
    intro l a h; cases l <;> simp_all
  have hel : e < results.length := hlt cls hcm e (List.mem_of_mem_head? (by simp [he]))
  refine ⟨e, results[e], he, List.getElem?_eq_getElem hel, hinc, ?_⟩
  intro i hi
  have hil := hlt cls hcm i hi
  refine ⟨results[i], List.getElem?_eq_getElem hil, ?_, ?_⟩
  · rcases inv.alike cls hcm i hi with h | h
    · exact .inl (by rw [h, hd cls e he])
    · right
      rw [hd cls e he] at h
      simp only [List.getElem?_eq_getElem hil, List.getElem?_eq_getElem hel] at h
      exact (same_iff tol n _ _ (hg _ (List.getElem_mem _)) (hg _ (List.getElem_mem _))).1 h
  · intro c' cls' e' em' hlt' hc' he' hm' ha
    have h := inv.first c c' cls cls' i hlt' hc hc' hi
    rw [hd cls' e' he'] at h
    simp only [List.getElem?_eq_getElem hil, hm'] at h
    rw [(same_iff tol n _ _ (hg _ (List.getElem_mem _)) (hg _ (List.mem_of_getElem? hm'))).2 ha] at h
    exact absurd h (by simp)

/-! ### Instances and findings, over ℚ -/

/-- A baseline that is zero at two points. -/
def exBase : MPart ℚ := ⟨1, 0, 0, [0, 0]⟩
/-- A model with one peak. -/
def exModel (func : ℕ) (val : List ℚ) : Model ℚ := ⟨[⟨0, func, 3, val⟩], exBase⟩

/-- Instance: the third model falls into the class of the first. -/
example : classify (1 / 10 : ℚ) [exModel 0 [10, 0], exModel 0 [20, 0], exModel 0 [10, 1]] = ([[0, 2], [1]], [(2, 0), (1, 1), (0, 0)]) ∧
    ∀ m ∈ [exModel 0 [10, 0], exModel 0 [20, 0], exModel 0 [10, 1]], SameGrid 2 m := by
  constructor
  · decide +kernel
  · intro m hm
    simp at hm
    rcases hm with rfl | rfl | rfl <;> simp [SameGrid, exModel, exBase]

/-- **C44, finding.** The difference of the sums of squares is compared, not the sum of the differences: two peaks
that have no point in common are "essentially the same", at tolerance 0. -/
theorem c44_disjoint_peaks_alike : (classify (0 : ℚ) [exModel 0 [5, 0], exModel 0 [0, 5]]).1 = [[0, 1]] := by
  decide +kernel

/-- **C44, finding.** The test of "peak types" compares the Python classes of the peak objects, which are the same for
all peaks; the peak functions are not compared. -/
theorem c44_functions_not_compared : (classify (0 : ℚ) [exModel 0 [5, 0], exModel 1 [5, 0]]).1 = [[0, 1]] := by
  decide +kernel

/-- **C44, limits.** Two models of one class need not be alike; and a better fitting later class is not looked for. -/
theorem c44_not_transitive : ∃ a b c : Model ℚ, (classify (1 / 2 : ℚ) [a, b, c]).1 = [[0, 1, 2]] ∧ same (1 / 2) b c = false := by
  refine ⟨exModel 0 [10, 0], exModel 0 [12, 0], exModel 0 [9, 0], ?_, ?_⟩
  · decide +kernel
  · decide +kernel

end Verif.Multimodel
