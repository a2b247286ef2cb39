import Verif.Covariance.Model
import Verif.Parts.Props
import Mathlib.Tactic.Linarith

/-!
# Lemmas on the maps and the expansion of `ModelCovariance`
-/

set_option linter.unusedSectionVars false

namespace Verif.Parts.Covariance

open Verif.Py

variable {K : Type}

/-- Number of parameters (fixed and free) before part `i`. -/
def off (ps : List (Part K)) (i : ℕ) : ℕ := ((ps.take i).map (fun p => p.pars.length)).sum

/-- Total number of parameters. -/
def total (ps : List (Part K)) : ℕ := (ps.map (fun p => p.pars.length)).sum

/-- The parts have as many values and flags as their functions have parameters (what the constructor
enforces: `c53_new`). -/
def WFParts (ps : List (Part K)) : Prop :=
  ∀ p ∈ ps, p.pars.length = p.owner.npars ∧ p.free.length = p.owner.npars

theorem npars_true {ps : List (Part K)} (h : WFParts ps) : npars ps true = total ps := by
  unfold npars total
  congr 1
  apply List.map_congr_left
  intro p hp
  simp [Part.npars, (h p hp).1]

theorem off_cons (p : Part K) (ps : List (Part K)) (k : ℕ) :
    off (p :: ps) (k + 1) = p.pars.length + off ps k := by simp [off]

theorem off_zero (ps : List (Part K)) : off ps 0 = 0 := by simp [off]

/-- What the maps of a covariance object should be for the parts `ps`. -/
structure Mapped (ps : List (Part K)) (st : MC K) : Prop where
  pmap : ∀ (i : ℕ) p, ps[i]? = some p → ∀ j < p.pars.length,
    Dict.get? st.pmap (i, j) = some (off ps i + j)
  ipmap : ∀ (i : ℕ) p, ps[i]? = some p → ∀ j < p.pars.length,
    Dict.get? st.ipmap (off ps i + j) = some (i, j)
  mmap : ∀ (i : ℕ) p, ps[i]? = some p → Dict.get? st.mmap i = some (off ps i, p.npars true)

theorem mapPars_spec (i : ℕ) : ∀ (cnt j n : ℕ) (st : MC K),
    (mapPars i cnt j n st).2 = n + cnt ∧
    (mapPars i cnt j n st).1.cov = st.cov ∧ (mapPars i cnt j n st).1.model = st.model ∧
    (mapPars i cnt j n st).1.mmap = st.mmap ∧
    (∀ a b, Dict.get? (mapPars i cnt j n st).1.pmap (a, b) =
      if a = i ∧ j ≤ b ∧ b < j + cnt then some (n + (b - j)) else Dict.get? st.pmap (a, b)) ∧
    (∀ m, Dict.get? (mapPars i cnt j n st).1.ipmap m =
      if n ≤ m ∧ m < n + cnt then some (i, j + (m - n)) else Dict.get? st.ipmap m) := by
  intro cnt
  induction cnt with
  | zero =>
    intro j n st
    refine ⟨rfl, rfl, rfl, rfl, ?_, ?_⟩
    · intro a b
      rw [if_neg (by omega)]; rfl
    · intro m
      rw [if_neg (by omega)]; rfl
  | succ cnt ih =>
    intro j n st
    unfold mapPars
    obtain ⟨h1, h2, h3, h4, h5, h6⟩ := ih (j + 1) (n + 1)
      { st with pmap := ((i, j), n) :: st.pmap, ipmap := (n, (i, j)) :: st.ipmap }
    refine ⟨by rw [h1]; omega, h2, h3, h4, ?_, ?_⟩
    · intro a b
      rw [h5]
      simp only [Dict.get?, Prod.mk.injEq]
      by_cases hc : a = i ∧ j + 1 ≤ b ∧ b < j + 1 + cnt
      · rw [if_pos hc, if_pos (by omega)]
        congr 1; omega
      · rw [if_neg hc]
        by_cases hd : i = a ∧ j = b
        · rw [if_pos hd, if_pos (by omega)]
          congr 1; omega
        · rw [if_neg hd, if_neg (by omega)]
    · intro m
      rw [h6]
      simp only [Dict.get?]
      by_cases hc : n + 1 ≤ m ∧ m < n + 1 + cnt
      · rw [if_pos hc, if_pos (by omega)]
        congr 2; omega
      · rw [if_neg hc]
        by_cases hd : n = m
        · rw [if_pos hd, if_pos (by omega)]
          congr 2; omega
        · rw [if_neg hd, if_neg (by omega)]

theorem mapParts_spec : ∀ (ps : List (Part K)) (i n : ℕ) (st : MC K),
    (mapParts ps i n st).2 = n + total ps ∧
    (mapParts ps i n st).1.cov = st.cov ∧ (mapParts ps i n st).1.model = st.model ∧
    (∀ (k : ℕ) p, ps[k]? = some p →
      Dict.get? (mapParts ps i n st).1.mmap (i + k) = some (n + off ps k, p.npars true)) ∧
    (∀ (k : ℕ) p, ps[k]? = some p → ∀ j < p.pars.length,
      Dict.get? (mapParts ps i n st).1.pmap (i + k, j) = some (n + off ps k + j)) ∧
    (∀ (k : ℕ) p, ps[k]? = some p → ∀ j < p.pars.length,
      Dict.get? (mapParts ps i n st).1.ipmap (n + off ps k + j) = some (i + k, j)) ∧
    (∀ a < i, Dict.get? (mapParts ps i n st).1.mmap a = Dict.get? st.mmap a) ∧
    (∀ a < i, ∀ b, Dict.get? (mapParts ps i n st).1.pmap (a, b) = Dict.get? st.pmap (a, b)) ∧
    (∀ m < n, Dict.get? (mapParts ps i n st).1.ipmap m = Dict.get? st.ipmap m) := by
  intro ps
  induction ps with
  | nil =>
    intro i n st
    simp [mapParts, total]
  | cons p ps ih =>
    intro i n st
    obtain ⟨a1, a2, a3, a4, a5, a6⟩ := mapPars_spec i p.pars.length 0 n
      { st with mmap := (i, (n, p.npars true)) :: st.mmap }
    unfold mapParts
    simp only
    set q := mapPars i p.pars.length 0 n { st with mmap := (i, (n, p.npars true)) :: st.mmap } with hq
    obtain ⟨b1, b2, b3, b4, b5, b6, b7, b8, b9⟩ := ih (i + 1) q.2 q.1
    refine ⟨?_, by rw [b2, a2], by rw [b3, a3], ?_, ?_, ?_, ?_, ?_, ?_⟩
    · rw [b1, a1]; simp only [total, List.map_cons, List.sum_cons]; omega
    · intro k p' hk
      match k with
      | 0 =>
        simp only [List.getElem?_cons_zero, Option.some.injEq] at hk
        subst hk
        rw [show i + 0 = i from rfl, b7 i (by omega), a4]
        simp [Dict.get?, off_zero]
      | k + 1 =>
        have := b4 k p' (by simpa using hk)
        rw [show i + (k + 1) = i + 1 + k by omega, this, a1, off_cons]
        congr 2; omega
    · intro k p' hk j hj
      match k with
      | 0 =>
        simp only [List.getElem?_cons_zero, Option.some.injEq] at hk
        subst hk
        rw [show i + 0 = i from rfl, b8 i (by omega), a5, if_pos (by omega), off_zero]
        congr 1
      | k + 1 =>
        have := b5 k p' (by simpa using hk) j hj
        rw [show i + (k + 1) = i + 1 + k by omega, this, a1, off_cons]
        congr 1; omega
    · intro k p' hk j hj
      match k with
      | 0 =>
        simp only [List.getElem?_cons_zero, Option.some.injEq] at hk
        subst hk
        rw [off_zero, b9 _ (by omega), a6, if_pos (by omega)]
        simp
      | k + 1 =>
        have := b6 k p' (by simpa using hk) j hj
        rw [off_cons, show n + (p.pars.length + off ps k) + j = q.2 + off ps k + j by rw [a1]; omega,
          this, show i + (k + 1) = i + 1 + k by omega]
    · intro a ha
      rw [b7 a (by omega), a4]
      simp only [Dict.get?]
      rw [if_neg (by omega)]
    · intro a ha b
      rw [b8 a (by omega), a5, if_neg (by omega)]
    · intro m hm
      rw [b9 m (by omega), a6, if_neg (by omega)]

theorem mapParts_mapped (ps : List (Part K)) (st : MC K) : Mapped ps (mapParts ps 0 0 st).1 := by
  obtain ⟨-, -, -, h4, h5, h6, -⟩ := mapParts_spec ps 0 0 st
  refine ⟨?_, ?_, ?_⟩
  · intro i p hp j hj
    have := h5 i p hp j hj
    simpa using this
  · intro i p hp j hj
    have := h6 i p hp j hj
    simpa using this
  · intro i p hp
    have := h4 i p hp
    simpa using this

/-! ### Expansion -/

theorem expandCols_spec (cov : ℕ → ℕ → K) (i rawi : ℕ) : ∀ (fs : List Bool) (j rawj : ℕ)
    (e : ℕ → ℕ → K) (a b : ℕ),
    expandCols cov i rawi fs j rawj e a b =
      if a = i ∧ j ≤ b ∧ fs[b - j]? = some true then cov rawi (rawj + (fs.take (b - j)).count true)
      else e a b := by
  intro fs
  induction fs with
  | nil => intro j rawj e a b; simp [expandCols]
  | cons f fs ih =>
    intro j rawj e a b
    cases f with
    | true =>
      rw [expandCols, ih]
      by_cases hb : b = j
      · subst hb
        rw [if_neg (by omega)]
        simp only [setEnt]
        by_cases ha : a = i
        · rw [if_pos (by simp [ha]), if_pos (by simp [ha])]; simp
        · rw [if_neg (by simp [ha]), if_neg (by simp [ha])]
      · by_cases hlt : j + 1 ≤ b
        · obtain ⟨d, rfl⟩ : ∃ d, b = j + 1 + d := ⟨b - (j + 1), by omega⟩
          have e1 : j + 1 + d - (j + 1) = d := by omega
          have e2 : j + 1 + d - j = d + 1 := by omega
          rw [e1, e2]
          have hne : ¬ (a = i ∧ j + 1 + d = j) := by omega
          simp only [List.getElem?_cons_succ, List.take_succ_cons, List.count_cons_self, setEnt,
            if_neg hne]
          by_cases hc : a = i ∧ fs[d]? = some true
          · rw [if_pos (by exact ⟨hc.1, by omega, hc.2⟩), if_pos (by exact ⟨hc.1, by omega, hc.2⟩)]
            congr 1; omega
          · rw [if_neg (by rintro ⟨x, -, y⟩; exact hc ⟨x, y⟩),
              if_neg (by rintro ⟨x, -, y⟩; exact hc ⟨x, y⟩)]
        · rw [if_neg (by omega), if_neg (by omega)]
          simp only [setEnt]
          rw [if_neg (by omega)]
    | false =>
      rw [expandCols, ih]
      by_cases hb : b = j
      · subst hb
        rw [if_neg (by omega), if_neg (by simp)]
      · by_cases hlt : j + 1 ≤ b
        · obtain ⟨d, rfl⟩ : ∃ d, b = j + 1 + d := ⟨b - (j + 1), by omega⟩
          have e1 : j + 1 + d - (j + 1) = d := by omega
          have e2 : j + 1 + d - j = d + 1 := by omega
          rw [e1, e2]
          have h3 : List.count true (false :: List.take d fs) = List.count true (List.take d fs) := by
            rw [List.count_cons]; simp
          simp only [List.getElem?_cons_succ, List.take_succ_cons, h3]
          by_cases hc : a = i ∧ fs[d]? = some true
          · rw [if_pos (by exact ⟨hc.1, by omega, hc.2⟩), if_pos (by exact ⟨hc.1, by omega, hc.2⟩)]
          · rw [if_neg (by rintro ⟨x, -, y⟩; exact hc ⟨x, y⟩),
              if_neg (by rintro ⟨x, -, y⟩; exact hc ⟨x, y⟩)]
        · rw [if_neg (by omega), if_neg (by omega)]

theorem expandRows_spec (cov : ℕ → ℕ → K) (free : List Bool) : ∀ (fs : List Bool) (i rawi : ℕ)
    (e : ℕ → ℕ → K) (a b : ℕ),
    expandRows cov free fs i rawi e a b =
      if (i ≤ a ∧ fs[a - i]? = some true) ∧ free[b]? = some true then
        cov (rawi + (fs.take (a - i)).count true) ((free.take b).count true)
      else e a b := by
  intro fs
  induction fs with
  | nil => intro i rawi e a b; simp [expandRows]
  | cons f fs ih =>
    intro i rawi e a b
    cases f with
    | true =>
      rw [expandRows, ih, expandCols_spec]
      simp only [Nat.zero_le, Nat.sub_zero, Nat.zero_add, true_and]
      by_cases ha : a = i
      · subst ha
        rw [if_neg (by omega)]
        by_cases hf : free[b]? = some true
        · rw [if_pos ⟨rfl, hf⟩, if_pos (by simp [hf])]; simp
        · rw [if_neg (by tauto), if_neg (by tauto)]
      · by_cases hlt : i + 1 ≤ a
        · obtain ⟨d, rfl⟩ : ∃ d, a = i + 1 + d := ⟨a - (i + 1), by omega⟩
          have e1 : i + 1 + d - (i + 1) = d := by omega
          have e2 : i + 1 + d - i = d + 1 := by omega
          rw [e1, e2]
          have hne : ¬ (i + 1 + d = i ∧ free[b]? = some true) := by omega
          simp only [List.getElem?_cons_succ, List.take_succ_cons, List.count_cons_self, if_neg hne]
          by_cases hc : fs[d]? = some true ∧ free[b]? = some true
          · rw [if_pos ⟨⟨by omega, hc.1⟩, hc.2⟩, if_pos ⟨⟨by omega, hc.1⟩, hc.2⟩]
            congr 1; omega
          · rw [if_neg (by rintro ⟨⟨-, x⟩, y⟩; exact hc ⟨x, y⟩),
              if_neg (by rintro ⟨⟨-, x⟩, y⟩; exact hc ⟨x, y⟩)]
        · rw [if_neg (by omega), if_neg (by tauto), if_neg (by omega)]
    | false =>
      rw [expandRows, ih]
      by_cases ha : a = i
      · subst ha
        rw [if_neg (by omega), if_neg (by simp)]
      · by_cases hlt : i + 1 ≤ a
        · obtain ⟨d, rfl⟩ : ∃ d, a = i + 1 + d := ⟨a - (i + 1), by omega⟩
          have e1 : i + 1 + d - (i + 1) = d := by omega
          have e2 : i + 1 + d - i = d + 1 := by omega
          rw [e1, e2]
          have h3 : List.count true (false :: List.take d fs) = List.count true (List.take d fs) := by
            rw [List.count_cons]; simp
          simp only [List.getElem?_cons_succ, List.take_succ_cons, h3]
          by_cases hc : fs[d]? = some true ∧ free[b]? = some true
          · rw [if_pos ⟨⟨by omega, hc.1⟩, hc.2⟩, if_pos ⟨⟨by omega, hc.1⟩, hc.2⟩]
          · rw [if_neg (by rintro ⟨⟨-, x⟩, y⟩; exact hc ⟨x, y⟩),
              if_neg (by rintro ⟨⟨-, x⟩, y⟩; exact hc ⟨x, y⟩)]
        · rw [if_neg (by omega), if_neg (by omega)]

/-! ### The flattened list of flags -/

theorem free_flat {ps : List (Part K)} (h : WFParts ps) {i : ℕ} {p : Part K} (hp : ps[i]? = some p)
    {j : ℕ} (hj : j < p.pars.length) :
    (ps.flatMap (fun p => p.free))[off ps i + j]? = p.free[j]? ∧
    ((ps.flatMap (fun p => p.free)).take (off ps i + j)).count true =
      npars (ps.take i) false + (p.free.take j).count true := by
  induction ps generalizing i with
  | nil => simp at hp
  | cons c ps ih =>
    have hc := h c List.mem_cons_self
    have hps : WFParts ps := fun q hq => h q (List.mem_cons_of_mem _ hq)
    match i with
    | 0 =>
      simp only [List.getElem?_cons_zero, Option.some.injEq] at hp
      subst hp
      have hjf : j < c.free.length := by omega
      simp only [off_zero, Nat.zero_add, List.flatMap_cons, List.take_zero]
      refine ⟨List.getElem?_append_left hjf, ?_⟩
      rw [List.take_append_of_le_length hjf.le]
      simp [npars]
    | i + 1 =>
      obtain ⟨h1, h2⟩ := ih hps (by simpa using hp)
      rw [off_cons, List.flatMap_cons]
      have hlen : c.free.length = c.pars.length := by omega
      rw [show c.pars.length + off ps i + j = c.free.length + (off ps i + j) by omega]
      refine ⟨?_, ?_⟩
      · rw [List.getElem?_append_right (by omega)]
        rw [Nat.add_sub_cancel_left]
        exact h1
      · rw [List.take_length_add_append, List.count_append, h2, List.take_succ_cons]
        simp [npars, Part.npars]
        omega

theorem off_add_lt {ps : List (Part K)} {i : ℕ} {p : Part K} (hp : ps[i]? = some p)
    {j : ℕ} (hj : j < p.pars.length) : off ps i + j < total ps := by
  induction ps generalizing i with
  | nil => simp at hp
  | cons c ps ih =>
    match i with
    | 0 =>
      simp only [List.getElem?_cons_zero, Option.some.injEq] at hp
      subst hp
      simp only [off_zero, total, List.map_cons, List.sum_cons]; omega
    | i + 1 =>
      have := ih (i := i) (by simpa using hp)
      rw [off_cons]
      simp only [total, List.map_cons, List.sum_cons] at this ⊢; omega

/-- Every index below the total is that of a parameter of a part. -/
theorem exists_split {ps : List (Part K)} {n : ℕ} (hn : n < total ps) :
    ∃ (i : ℕ) (p : Part K) (j : ℕ), ps[i]? = some p ∧ j < p.pars.length ∧ n = off ps i + j := by
  induction ps generalizing n with
  | nil => simp [total] at hn
  | cons c ps ih =>
    by_cases hc : n < c.pars.length
    · exact ⟨0, c, n, rfl, hc, by simp [off_zero]⟩
    · have : n - c.pars.length < total ps := by
        simp only [total, List.map_cons, List.sum_cons] at hn ⊢; omega
      obtain ⟨i, p, j, h1, h2, h3⟩ := ih this
      exact ⟨i + 1, p, j, by simpa using h1, h2, by rw [off_cons]; omega⟩

/-- Blocks of different parts are disjoint. -/
theorem off_lt {ps : List (Part K)} {i k : ℕ} {p : Part K} (hp : ps[i]? = some p) (hik : i < k) :
    off ps i + p.pars.length ≤ off ps k := by
  induction ps generalizing i k with
  | nil => simp at hp
  | cons c ps ih =>
    obtain ⟨k, rfl⟩ : ∃ m, k = m + 1 := ⟨k - 1, by omega⟩
    match i with
    | 0 =>
      simp only [List.getElem?_cons_zero, Option.some.injEq] at hp
      subst hp
      rw [off_zero, off_cons]; omega
    | i + 1 =>
      have := ih (i := i) (k := k) (by simpa using hp) (by omega)
      rw [off_cons, off_cons]; omega

end Verif.Parts.Covariance
