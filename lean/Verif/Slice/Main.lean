import Mathlib.Tactic.NormNum
import Mathlib.Tactic.Positivity
import Mathlib.Data.List.Pairwise
import Verif.Slice.Model

/-!
# C120: parts of models, and the covariance of a model
-/

namespace Verif.Parts.Slice

open Verif.Py

set_option linter.unusedSectionVars false

variable {α V : Type}

theorem count_pos (a b s : ℤ) (hs : 0 < s) (k : ℕ) : k < countOf a b s ↔ a + k * s < b := by
  unfold countOf
  rw [if_neg (by omega)]
  by_cases hab : a < b
  · rw [if_pos hab, Int.lt_toNat, Int.lt_add_one_iff, Int.le_ediv_iff_mul_le hs]
    omega
  · rw [if_neg hab]
    have : 0 ≤ (k : ℤ) * s := by positivity
    omega

theorem count_neg (a b s : ℤ) (hs : s < 0) (k : ℕ) : k < countOf a b s ↔ b < a + k * s := by
  unfold countOf
  rw [if_pos hs]
  by_cases hab : b < a
  · rw [if_pos hab, Int.lt_toNat, Int.lt_add_one_iff, Int.le_ediv_iff_mul_le (by omega)]
    have : (k : ℤ) * -s = -(k * s) := by ring
    omega
  · rw [if_neg hab]
    have : (k : ℤ) * s ≤ 0 := mul_nonpos_of_nonneg_of_nonpos (by omega) (by omega)
    omega

/-- Some parts of a model by their positions, in the order of the positions. -/
def At (m : List α) (idx : List ℕ) (l : List α) : Prop := List.Forall₂ (fun i p => m[i]? = some p) idx l

/-- The position a number in a slice means: negative numbers count from the end. -/
def placeOf (n : ℕ) (a : ℤ) : ℤ := if a < 0 then a + n else a

theorem at_range (m : List α) (a s : ℤ) (c : ℕ) (h : ∀ k < c, 0 ≤ a + (k : ℤ) * s ∧ a + (k : ℤ) * s < m.length) :
    At m ((List.range c).map (fun k : ℕ => (a + (k : ℤ) * s).toNat)) ((List.range c).filterMap (fun k : ℕ => m[(a + (k : ℤ) * s).toNat]?)) := by
  have key : ∀ ks : List ℕ, (∀ k ∈ ks, k < c) → At m (ks.map (fun k : ℕ => (a + (k : ℤ) * s).toNat)) (ks.filterMap (fun k : ℕ => m[(a + (k : ℤ) * s).toNat]?)) := by
    intro ks
    induction ks with
    | nil => exact fun _ => .nil
    | cons k ks ih =>
      intro hk
      obtain ⟨h1, h2⟩ := h k (hk k (by simp))
      have hlt : (a + (k : ℤ) * s).toNat < m.length := by omega
      have e := List.getElem?_eq_getElem hlt
      rw [List.filterMap_cons, e, List.map_cons]
      exact .cons e (ih (fun x hx => hk x (by simp [hx])))
  exact key _ (fun k hk => List.mem_range.1 hk)

/-- **C120.** A slice with a positive step (1 if none is given) of a model is a model with the same part objects: those at the
positions `i` from the start to before the end with `i - start` divisible by the step, each once, in the order of the model.  The
start is 0 if not given or before the model. -/
theorem c120_slice (m : List α) (a b c : Option ℤ) (s : ℤ) (hs : c.getD 1 = s) (hpos : 0 < s) :
    ∃ l idx, getItem m (.slice a b c) = .ok (.parts l) ∧ At m idx l ∧ idx.Pairwise (· < ·) ∧
      ∀ i : ℕ, i ∈ idx ↔ i < m.length ∧ max 0 (placeOf m.length (a.getD 0)) ≤ i ∧
        (∀ e, b = some e → (i : ℤ) < placeOf m.length e) ∧ s ∣ i - max 0 (placeOf m.length (a.getD 0)) := by
  have hlo : (startOf m.length a s = max 0 (placeOf m.length (a.getD 0)) ∧ startOf m.length a s ≤ m.length) ∨
      (startOf m.length a s = m.length ∧ (m.length : ℤ) ≤ max 0 (placeOf m.length (a.getD 0))) := by
    unfold startOf placeOf
    cases a with
    | none => left; simp only [Option.getD_none]; rw [if_neg (by omega)]; simp
    | some a =>
      simp only [Option.getD_some]
      split <;> split <;> (try split) <;> omega
  have h0 : 0 ≤ startOf m.length a s := by omega
  have hhi : stopOf m.length b s ≤ m.length ∧ ∀ i : ℕ, i < m.length → ((i : ℤ) < stopOf m.length b s ↔ ∀ e, b = some e → (i : ℤ) < placeOf m.length e) := by
    unfold stopOf placeOf
    cases b with
    | none =>
      simp only
      rw [if_neg (by omega)]
      refine ⟨le_rfl, fun i hi => ⟨fun _ e h => (by cases h), fun _ => (by omega)⟩⟩
    | some b =>
      simp only
      refine ⟨by split <;> split <;> (try split) <;> omega, fun i hi => ?_⟩
      simp only [Option.some.injEq, forall_eq']
      split <;> split <;> (try split) <;> omega
  have hin : ∀ k < countOf (startOf m.length a s) (stopOf m.length b s) s, 0 ≤ startOf m.length a s + (k : ℤ) * s ∧ startOf m.length a s + (k : ℤ) * s < m.length := by
    intro k hk
    rw [count_pos _ _ _ hpos] at hk
    have : 0 ≤ (k : ℤ) * s := by positivity
    omega
  refine ⟨_, _, ?_, at_range m _ s _ hin, ?_, ?_⟩
  · unfold getItem listSlice
    simp only
    rw [hs, if_neg (by omega)]
    rfl
  · rw [List.pairwise_map]
    refine List.Pairwise.imp ?_ List.pairwise_lt_range
    intro i j hij
    have : (i : ℤ) * s < j * s := by
      apply mul_lt_mul_of_pos_right _ hpos
      exact_mod_cast hij
    have : 0 ≤ (i : ℤ) * s := by positivity
    omega
  · intro i
    rw [List.mem_map]
    simp only [List.mem_range]
    constructor
    · rintro ⟨k, hk, rfl⟩
      obtain ⟨h1, h2⟩ := hin k hk
      have h3 : ((startOf m.length a s + (k : ℤ) * s).toNat : ℤ) = startOf m.length a s + (k : ℤ) * s := Int.toNat_of_nonneg h1
      have h4 : (startOf m.length a s + (k : ℤ) * s).toNat < m.length := by omega
      have hks : 0 ≤ (k : ℤ) * s := by positivity
      rcases hlo with ⟨hl, _⟩ | ⟨hl, _⟩
      · refine ⟨h4, by omega, (hhi.2 _ h4).1 (by rw [h3]; exact (count_pos _ _ _ hpos k).1 hk), ?_⟩
        rw [h3, ← hl]
        exact ⟨k, by ring⟩
      · omega
    · rintro ⟨h1, h2, h3, d, h4⟩
      rcases hlo with ⟨hl, _⟩ | ⟨hl, hl2⟩
      · have hd : 0 ≤ d := by
          by_contra hc
          have : s * d < 0 := mul_neg_of_pos_of_neg hpos (by omega)
          omega
        have e : startOf m.length a s + (d.toNat : ℤ) * s = i := by
          rw [Int.toNat_of_nonneg hd, hl, mul_comm]
          omega
        refine ⟨d.toNat, ?_, by rw [e]; simp⟩
        rw [count_pos _ _ _ hpos, e]
        exact (hhi.2 i h1).2 h3
      · omega

/-- **C120.** A slice with a negative step goes backwards: from the start (the last part if not given or after the model) down to
after the end. -/
theorem c120_backwards (m : List α) (a b : Option ℤ) (s : ℤ) (hneg : s < 0) :
    ∃ l idx, getItem m (.slice a b (some s)) = .ok (.parts l) ∧ At m idx l ∧ idx.Pairwise (· > ·) ∧
      ∀ i : ℕ, i ∈ idx ↔ i < m.length ∧ (i : ℤ) ≤ min ((m.length : ℤ) - 1) (placeOf m.length (a.getD ((m.length : ℤ) - 1))) ∧
        (∀ e, b = some e → placeOf m.length e < (i : ℤ)) ∧ s ∣ i - min ((m.length : ℤ) - 1) (placeOf m.length (a.getD ((m.length : ℤ) - 1))) := by
  have hlo : (startOf m.length a s = min ((m.length : ℤ) - 1) (placeOf m.length (a.getD ((m.length : ℤ) - 1))) ∨
      (startOf m.length a s = -1 ∧ min ((m.length : ℤ) - 1) (placeOf m.length (a.getD ((m.length : ℤ) - 1))) < 0)) ∧
      startOf m.length a s < m.length := by
    unfold startOf placeOf
    cases a with
    | none =>
      simp only [Option.getD_none]
      rw [if_pos hneg]
      split <;> omega
    | some a =>
      simp only [Option.getD_some]
      split <;> split <;> (try split) <;> omega
  have hhi : -1 ≤ stopOf m.length b s ∧ ∀ i : ℕ, i < m.length → (stopOf m.length b s < (i : ℤ) ↔ ∀ e, b = some e → placeOf m.length e < (i : ℤ)) := by
    unfold stopOf placeOf
    cases b with
    | none =>
      simp only
      rw [if_pos hneg]
      refine ⟨le_rfl, fun i hi => ⟨fun _ e h => (by cases h), fun _ => (by omega)⟩⟩
    | some b =>
      simp only
      refine ⟨by split <;> split <;> (try split) <;> omega, fun i hi => ?_⟩
      simp only [Option.some.injEq, forall_eq']
      split <;> split <;> (try split) <;> omega
  have hin : ∀ k < countOf (startOf m.length a s) (stopOf m.length b s) s, 0 ≤ startOf m.length a s + (k : ℤ) * s ∧ startOf m.length a s + (k : ℤ) * s < m.length := by
    intro k hk
    rw [count_neg _ _ _ hneg] at hk
    have : (k : ℤ) * s ≤ 0 := mul_nonpos_of_nonneg_of_nonpos (by omega) (by omega)
    omega
  refine ⟨_, _, ?_, at_range m _ s _ hin, ?_, ?_⟩
  · unfold getItem listSlice
    simp only [Option.getD_some]
    rw [if_neg (by omega)]
    rfl
  · rw [List.pairwise_map]
    refine List.Pairwise.imp_of_mem ?_ List.pairwise_lt_range
    intro i j hi hj hij
    have h1 := hin i (List.mem_range.1 hi)
    have h2 := hin j (List.mem_range.1 hj)
    have : (j : ℤ) * s < i * s := by
      apply mul_lt_mul_of_neg_right _ hneg
      exact_mod_cast hij
    show (startOf m.length a s + (j : ℤ) * s).toNat < (startOf m.length a s + (i : ℤ) * s).toNat
    omega
  · intro i
    rw [List.mem_map]
    simp only [List.mem_range]
    constructor
    · rintro ⟨k, hk, rfl⟩
      obtain ⟨h1, h2⟩ := hin k hk
      have h3 : ((startOf m.length a s + (k : ℤ) * s).toNat : ℤ) = startOf m.length a s + (k : ℤ) * s := Int.toNat_of_nonneg h1
      have h4 : (startOf m.length a s + (k : ℤ) * s).toNat < m.length := by omega
      have hks : (k : ℤ) * s ≤ 0 := mul_nonpos_of_nonneg_of_nonpos (by omega) (by omega)
      rcases hlo.1 with hl | ⟨hl, _⟩
      · refine ⟨h4, by omega, (hhi.2 _ h4).1 (by rw [h3]; exact (count_neg _ _ _ hneg k).1 hk), ?_⟩
        rw [h3, ← hl]
        exact ⟨k, by ring⟩
      · omega
    · rintro ⟨h1, h2, h3, d, h4⟩
      rcases hlo.1 with hl | ⟨hl, hl2⟩
      · have hd : 0 ≤ d := by
          by_contra hc
          have : 0 < s * d := mul_pos_of_neg_of_neg hneg (by omega)
          omega
        have e : startOf m.length a s + (d.toNat : ℤ) * s = i := by
          rw [Int.toNat_of_nonneg hd, hl, mul_comm]
          omega
        refine ⟨d.toNat, ?_, by rw [e]; simp⟩
        rw [count_neg _ _ _ hneg, e]
        exact (hhi.2 i h1).2 h3
      · omega

/-- **C120.** `model[a, b]` is `model[a:b]`; a step of 0 is ValueError, any other tuple TypeError. -/
theorem c120_forms (m : List α) (a b : Option ℤ) :
    getItem m (.pair a b) = getItem m (.slice a b none) ∧ getItem m (.slice a b (some 0)) = .error .value ∧
      getItem m .tuple = .error .type := by
  refine ⟨rfl, ?_, rfl⟩
  unfold getItem listSlice
  simp only [Option.getD_some]
  rfl

/-- **C120.** `model[i]` is the part object at that place, counted from the end if negative; without such a place IndexError. -/
theorem c120_item (m : List α) (i : ℤ) :
    (∀ p, getItem m (.int i) = .ok (.part p) ↔ 0 ≤ placeOf m.length i ∧ m[(placeOf m.length i).toNat]? = some p) ∧
    ((∀ p, getItem m (.int i) ≠ .ok (.part p)) ↔ getItem m (.int i) = .error .index) ∧
    ((i < -m.length ∨ (m.length : ℤ) ≤ i) ↔ getItem m (.int i) = .error .index) := by
  have e : getItem m (.int i) = (if placeOf m.length i < 0 then (.error .index : Res α) else
      match m[(placeOf m.length i).toNat]? with | none => .error .index | some p => .ok p).map Got.part := rfl
  have hp : placeOf m.length i = if i < 0 then i + m.length else i := rfl
  rw [e]
  by_cases h : placeOf m.length i < 0
  · rw [if_pos h]
    refine ⟨fun p => ⟨fun h => (by cases h), fun h' => absurd h'.1 (by omega)⟩, ⟨fun _ => rfl, fun _ p h => (by cases h)⟩, ⟨fun _ => rfl, fun _ => ?_⟩⟩
    rw [hp] at h
    split at h <;> omega
  · rw [if_neg h]
    cases hm : m[(placeOf m.length i).toNat]? with
    | none =>
      refine ⟨fun p => ⟨fun h => (by cases h), fun h' => (by cases h'.2)⟩, ⟨fun _ => rfl, fun _ p h => (by cases h)⟩, ⟨fun _ => rfl, fun _ => ?_⟩⟩
      have := List.getElem?_eq_none_iff.1 hm
      rw [hp] at h this
      split at h <;> omega
    | some p =>
      refine ⟨fun q => ?_, ⟨fun h' => absurd rfl (h' p), fun h' => (by cases h')⟩, ⟨fun h' => ?_, fun h' => (by cases h')⟩⟩
      · simp only [Except.map, Except.ok.injEq, Got.part.injEq, Option.some.injEq]
        exact ⟨fun e => ⟨by omega, e⟩, fun e => e.2⟩
      · exfalso
        have hlt := (List.getElem?_eq_some_iff.1 hm).1
        rw [hp] at h hlt
        split at h <;> omega

theorem at_unique {m : List α} : ∀ {idx idx' : List ℕ} {l l' : List α}, At m idx l → At m idx' l' → idx.Pairwise (· < ·) → idx'.Pairwise (· < ·) →
    (∀ i, i ∈ idx ↔ i ∈ idx') → l = l' := by
  intro idx idx' l l' h h' hp hp' hmem
  have : idx = idx' := by
    apply List.Perm.eq_of_pairwise (le := (· < ·))
    · intro a b _ _ h1 h2
      exact absurd h1 (by omega)
    · exact hp
    · exact hp'
    · rw [List.perm_ext_iff_of_nodup (hp.imp (fun h => Nat.ne_of_lt h)) (hp'.imp (fun h => Nat.ne_of_lt h))]
      exact hmem
  subst this
  clear hp hp' hmem
  induction h generalizing l' with
  | nil => cases h'; rfl
  | cons h1 _ ih =>
    cases h' with
    | cons h2 ht =>
      rw [h1] at h2
      cases h2
      rw [ih ht]

/-- **C120.** Whatever place `k` (also a negative one, also one outside): the parts before it and those from it on are the whole
model, `model[:k] + model[k:]`; and `model[:]` holds all parts in order. -/
theorem c120_split (m : List α) (k : ℤ) :
    (∃ l r, getItem m (.slice none (some k) none) = .ok (.parts l) ∧ getItem m (.slice (some k) none none) = .ok (.parts r) ∧ l ++ r = m) ∧
    getItem m (.slice none none none) = .ok (.parts m) := by
  have hall : ∀ n (m : List α), n = m.length → At m (List.range n) m := by
    rintro n m rfl
    refine List.forall₂_iff_get.2 ⟨by simp, fun i h1 h2 => ?_⟩
    simp
  have hfull : ∀ idx : List ℕ, ∀ l : List α, At m idx l → idx.Pairwise (· < ·) → (∀ i, i ∈ idx ↔ i < m.length) → l = m := by
    intro idx l h1 h2 h3
    exact at_unique h1 (hall _ m rfl) h2 List.pairwise_lt_range (fun i => by rw [h3, List.mem_range])
  refine ⟨?_, ?_⟩
  · obtain ⟨l, i1, e1, a1, p1, m1⟩ := c120_slice m none (some k) none 1 rfl (by omega)
    obtain ⟨r, i2, e2, a2, p2, m2⟩ := c120_slice m (some k) none none 1 rfl (by omega)
    refine ⟨l, r, e1, e2, hfull (i1 ++ i2) (l ++ r) (List.rel_append a1 a2) ?_ ?_⟩
    · rw [List.pairwise_append]
      refine ⟨p1, p2, fun i hi j hj => ?_⟩
      have := ((m1 i).1 hi).2.2.1 k rfl
      have := ((m2 j).1 hj).2.1
      simp only [Option.getD_some] at this
      omega
    · intro i
      rw [List.mem_append, m1, m2]
      simp only [Option.getD_none, Option.getD_some, Option.some.injEq, forall_eq', one_dvd, and_true, reduceCtorEq, false_imp_iff, implies_true]
      have : placeOf m.length 0 = 0 := rfl
      rw [this]
      omega
  · obtain ⟨l, i1, e1, a1, p1, m1⟩ := c120_slice m none none none 1 rfl (by omega)
    rw [e1, hfull i1 l a1 p1]
    intro i
    rw [m1]
    simp only [Option.getD_none, one_dvd, and_true, reduceCtorEq, false_imp_iff, implies_true]
    have : placeOf m.length 0 = 0 := rfl
    rw [this]
    omega

/-- **C120, finding.** `model.covariance()` never returns a matrix: `None` if every keyword is some character followed by the
number of a part (the first character is not looked at, and negative numbers count from the end); else the first that is not
makes it ValueError (no number) or IndexError (no such part). -/
theorem c120_covariance {M : Type} (int : List Char → Option ℤ) (m : List α) (format : V) (kwds : List (List Char × V)) :
    (∀ c : M, covariance int m format kwds ≠ .ok (some c)) ∧
    ((covariance int m format kwds : Res (Option M)) = .ok none ↔
      ∀ kv ∈ kwds, ∃ i, int (kv.1.drop 1) = some i ∧ -(m.length : ℤ) ≤ i ∧ i < m.length) ∧
    (∀ good bad rest, kwds = good ++ bad :: rest →
      (∀ kv ∈ good, ∃ i, int (kv.1.drop 1) = some i ∧ -(m.length : ℤ) ≤ i ∧ i < m.length) →
      (int (bad.1.drop 1) = none → (covariance int m format kwds : Res (Option M)) = .error .value) ∧
      (∀ i, int (bad.1.drop 1) = some i → (i < -(m.length : ℤ) ∨ (m.length : ℤ) ≤ i) →
        (covariance int m format kwds : Res (Option M)) = .error .index)) := by
  have hset : ∀ (l : List V) i v, l.length = m.length →
      ((-(m.length : ℤ) ≤ i ∧ i < m.length) → ∃ l', setItem l i v = .ok l' ∧ l'.length = m.length) ∧
      ((i < -(m.length : ℤ) ∨ (m.length : ℤ) ≤ i) → setItem l i v = .error .index) := by
    intro l i v hl
    unfold setItem
    simp only [hl]
    by_cases hi : i < 0
    · rw [if_pos hi]
      refine ⟨fun h => ?_, fun h => ?_⟩
      · rw [if_neg (by omega), if_neg (by omega)]
        exact ⟨_, rfl, by rw [List.length_set, hl]⟩
      · rw [if_pos (by omega)]
    · rw [if_neg hi]
      refine ⟨fun h => ?_, fun h => ?_⟩
      · rw [if_neg (by omega), if_neg (by omega)]
        exact ⟨_, rfl, by rw [List.length_set, hl]⟩
      · rw [if_neg (by omega), if_pos (by omega)]
  have hok : ∀ (ks : List (List Char × V)) (l : List V), l.length = m.length →
      ((∃ l', formatsFrom int ks l = .ok l') ↔ ∀ kv ∈ ks, ∃ i, int (kv.1.drop 1) = some i ∧ -(m.length : ℤ) ≤ i ∧ i < m.length) := by
    intro ks
    induction ks with
    | nil => exact fun l _ => ⟨fun _ _ h => absurd h (by simp), fun _ => ⟨l, rfl⟩⟩
    | cons kv ks ih =>
      intro l hl
      obtain ⟨k, v⟩ := kv
      rw [formatsFrom]
      simp only [List.mem_cons, forall_eq_or_imp]
      cases hi : int (k.drop 1) with
      | none => exact ⟨fun ⟨_, h⟩ => (by cases h), fun h => by obtain ⟨⟨i, h, _⟩, _⟩ := h; cases h⟩
      | some i =>
        simp only
        by_cases hr : -(m.length : ℤ) ≤ i ∧ i < m.length
        · obtain ⟨l', h1, h2⟩ := (hset l i v hl).1 hr
          rw [h1]
          simp only
          rw [ih l' h2]
          exact ⟨fun h => ⟨⟨i, rfl, hr⟩, h⟩, fun h => h.2⟩
        · rw [(hset l i v hl).2 (by omega)]
          refine ⟨fun ⟨_, h⟩ => (by cases h), fun h => ?_⟩
          obtain ⟨⟨j, h, hj⟩, _⟩ := h
          cases h
          exact absurd hj hr
  have hbad : ∀ (good : List (List Char × V)) (bad : List Char × V) (rest : List (List Char × V)) (l : List V), l.length = m.length →
      (∀ kv ∈ good, ∃ i, int (kv.1.drop 1) = some i ∧ -(m.length : ℤ) ≤ i ∧ i < m.length) →
      (int (bad.1.drop 1) = none → formatsFrom int (good ++ bad :: rest) l = .error .value) ∧
      (∀ i, int (bad.1.drop 1) = some i → (i < -(m.length : ℤ) ∨ (m.length : ℤ) ≤ i) →
        formatsFrom int (good ++ bad :: rest) l = .error .index) := by
    intro good
    induction good with
    | nil =>
      intro bad rest l hl _
      obtain ⟨k, v⟩ := bad
      refine ⟨fun h => ?_, fun i h hi => ?_⟩
      · simp only at h
        rw [List.nil_append, formatsFrom, h]
      · simp only at h
        rw [List.nil_append, formatsFrom, h]
        simp only
        rw [(hset l i v hl).2 hi]
    | cons kv good ih =>
      intro bad rest l hl hg
      obtain ⟨k, v⟩ := kv
      obtain ⟨i, h1, h2⟩ := hg (k, v) (by simp)
      simp only at h1
      obtain ⟨l', h3, h4⟩ := (hset l i v hl).1 h2
      have := ih bad rest l' h4 (fun x hx => hg x (by simp [hx]))
      rw [List.cons_append, formatsFrom, h1]
      show (_ → (match setItem l i v with | .error e => Except.error e | .ok l => formatsFrom int (good ++ bad :: rest) l) = _) ∧ ∀ j, _ → _ → (match setItem l i v with | .error e => Except.error e | .ok l => formatsFrom int (good ++ bad :: rest) l) = _
      rw [h3]
      exact this
  have hl : (m.map (fun _ => format)).length = m.length := List.length_map _
  have hcov : ∀ kw, (covariance int m format kw : Res (Option M)) = .ok none ↔ ∃ l', formatsFrom int kw (m.map (fun _ => format)) = .ok l' := by
    intro kw
    unfold covariance
    cases h : formatsFrom int kw (m.map (fun _ => format)) with
    | error e => exact ⟨fun h => (by cases h), fun ⟨_, h⟩ => (by cases h)⟩
    | ok l => exact ⟨fun _ => ⟨l, rfl⟩, fun _ => rfl⟩
  refine ⟨?_, (hcov kwds).trans (hok kwds _ hl), ?_⟩
  · intro c h
    unfold covariance at h
    split at h <;> cases h
  · rintro good bad rest rfl hg
    obtain ⟨h1, h2⟩ := hbad good bad rest _ hl hg
    unfold covariance
    exact ⟨fun h => by rw [h1 h], fun i h hi => by rw [h2 i h hi]⟩

/-! ### Examples -/

/-- Instances of C120: five parts. -/
example : getItem [10, 11, 12, 13, 14] (.slice (some (-4)) (some 9) (some 2)) = .ok (.parts [11, 13]) ∧
    getItem [10, 11, 12, 13, 14] (.slice none (some 1) (some (-1))) = .ok (.parts [14, 13, 12]) ∧
    getItem [10, 11, 12, 13, 14] (.pair (some 1) none) = .ok (.parts [11, 12, 13, 14]) ∧
    getItem [10, 11, 12, 13, 14] (.int (-5)) = .ok (.part 10) ∧ getItem [10, 11, 12, 13, 14] (.int 5) = .error .index := by
  refine ⟨rfl, rfl, rfl, rfl, rfl⟩

/-- An `int` for digits. -/
def exInt (t : List Char) : Option ℤ := if t = ['1'] then some 1 else if t = "-2".toList then some (-2) else none

example : (covariance exInt [10, 11] "internal" [("f1".toList, "pwa"), ("?-2".toList, "pwa")] : Res (Option (List ℤ))) = .ok none ∧
    (covariance exInt [10, 11] "internal" [("f1".toList, "pwa"), ("foo".toList, "pwa")] : Res (Option (List ℤ))) = .error .value :=
  ⟨(c120_covariance exInt _ _ _).2.1.2 (by decide), rfl⟩

end Verif.Parts.Slice
