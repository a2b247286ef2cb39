import Verif.Cluster.Spec
import Mathlib.Tactic.Linarith

/-! Helper lemmas about the cluster table and the search for the nearest cluster. -/

namespace Verif.Cluster

set_option linter.unusedSectionVars false

variable {α : Type} [AddCommGroup α] [LinearOrder α]

theorem length_flat (cs : List (ℕ × ℕ)) : (flat cs).length = 2 * cs.length := by
  induction cs with
  | nil => rfl
  | cons c cs ih => simp [flat, ih]; omega

theorem flat_append (a b : List (ℕ × ℕ)) : flat (a ++ b) = flat a ++ flat b := by
  induction a with
  | nil => rfl
  | cons c cs ih => simp [flat, ih]

theorem insertIdx_append {β : Type} (p q : List β) (a : β) :
    (p ++ q).insertIdx p.length a = p ++ a :: q := by
  induction p with
  | nil => simp
  | cons c p ih => simp [ih]

/-- Splitting a table at a point: clusters wholly left of it, and the others. -/
theorem split_at {n : ℕ} {cs : List (ℕ × ℕ)} (h : WF n cs) (i : ℕ) :
    ∃ pre post, cs = pre ++ post ∧ (∀ c ∈ pre, c.2 < i) ∧ (∀ c ∈ post, i ≤ c.2) := by
  have hv := h.valid
  have ho := h.ordered
  clear h
  induction cs with
  | nil => exact ⟨[], [], rfl, by simp, by simp⟩
  | cons c cs ih =>
    rw [List.pairwise_cons] at ho
    by_cases hc : c.2 < i
    · obtain ⟨pre, post, rfl, h1, h2⟩ := ih (fun d hd => hv d (List.mem_cons_of_mem _ hd)) ho.2
      refine ⟨c :: pre, post, rfl, ?_, h2⟩
      intro d hd
      rcases List.mem_cons.1 hd with rfl | hd
      · exact hc
      · exact h1 d hd
    · refine ⟨[], c :: cs, rfl, by simp, ?_⟩
      intro d hd
      rcases List.mem_cons.1 hd with rfl | hd
      · omega
      · have := ho.1 d hd
        have := hv d (List.mem_cons_of_mem _ hd)
        omega

theorem takeWhile_flat_pre {pre : List (ℕ × ℕ)} {i : ℕ} (hv : ∀ c ∈ pre, c.1 ≤ c.2)
    (h : ∀ c ∈ pre, c.2 < i) (l : List ℕ) :
    ((flat pre ++ l).takeWhile (fun a => decide (a < i))).length
      = 2 * pre.length + (l.takeWhile (fun a => decide (a < i))).length := by
  induction pre with
  | nil => simp [flat]
  | cons c cs ih =>
    have h1 := h c (by simp)
    have h2 := hv c (by simp)
    have := ih (fun d hd => hv d (List.mem_cons_of_mem _ hd))
      (fun d hd => h d (List.mem_cons_of_mem _ hd))
    have h3 : c.1 < i := by omega
    simp [flat, h1, h3, this]
    omega

variable {x : List α} {n : ℕ}

theorem nearest_right {pre : List (ℕ × ℕ)} {b : ℕ × ℕ} {i : ℕ}
    (hv : ∀ c ∈ pre ++ [b], c.1 ≤ c.2) (h : ∀ c ∈ pre ++ [b], c.2 < i) :
    nearest x (pre ++ [b]) i = some (pre.length, x.getD i 0 - x.getD b.2 0) := by
  have hs : searchsorted (flat (pre ++ [b])) i = 2 * (pre.length + 1) := by
    have := takeWhile_flat_pre hv h []
    simpa [searchsorted] using this
  unfold nearest
  simp only [hs, length_flat, List.length_append, List.length_singleton]
  have : 2 * (pre.length + 1) / 2 - 1 = pre.length := by omega
  rw [if_neg (by omega), if_pos trivial, this]
  simp [row]

theorem nearest_inside {pre post : List (ℕ × ℕ)} {c : ℕ × ℕ} {i : ℕ}
    (hv : ∀ c ∈ pre, c.1 ≤ c.2) (h : ∀ c ∈ pre, c.2 < i) (h1 : c.1 ≤ i) (h2 : i ≤ c.2) :
    nearest x (pre ++ c :: post) i = some (pre.length, 0) := by
  have hl : (flat (pre ++ c :: post)).length = 2 * pre.length + 2 * post.length + 2 := by
    simp [length_flat]; omega
  unfold nearest
  rcases Nat.lt_or_ge c.1 i with h3 | h3
  · have hs : searchsorted (flat (pre ++ c :: post)) i = 2 * pre.length + 1 := by
      have := takeWhile_flat_pre hv h (flat (c :: post))
      rw [searchsorted, flat_append, this]
      simp [flat, h3, Nat.not_lt.2 h2]
    simp only [hs, hl]
    rw [if_neg (by omega), if_neg (by omega), if_pos (by right; omega)]
    congr 2; omega
  · have h3 : c.1 = i := by omega
    have hs : searchsorted (flat (pre ++ c :: post)) i = 2 * pre.length := by
      have := takeWhile_flat_pre hv h (flat (c :: post))
      rw [searchsorted, flat_append, this]
      simp [flat, h3]
    simp only [hs, hl]
    have hg : (flat (pre ++ c :: post)).getD (2 * pre.length) 0 = i := by
      rw [flat_append, ← length_flat]
      simp [flat, h3]
    rw [if_neg (by omega), if_neg (by omega), if_pos (by left; exact hg)]
    congr 2; omega

theorem searchsorted_between {pre post : List (ℕ × ℕ)} {c : ℕ × ℕ} {i : ℕ}
    (hv : ∀ c ∈ pre, c.1 ≤ c.2) (h : ∀ c ∈ pre, c.2 < i) (h1 : i < c.1) :
    searchsorted (flat (pre ++ c :: post)) i = 2 * pre.length ∧
    (flat (pre ++ c :: post)).getD (2 * pre.length) 0 = c.1 := by
  constructor
  · have := takeWhile_flat_pre hv h (flat (c :: post))
    rw [searchsorted, flat_append, this]
    simp [flat, Nat.not_lt.2 h1.le]
  · rw [flat_append, ← length_flat]
    simp [flat]

theorem nearest_left {post : List (ℕ × ℕ)} {c : ℕ × ℕ} {i : ℕ} (h1 : i < c.1) :
    nearest x (c :: post) i = some (0, x.getD i 0 - x.getD c.1 0) := by
  obtain ⟨hs, hg⟩ := searchsorted_between (pre := []) (post := post) (c := c) (i := i)
    (by simp) (by simp) h1
  simp only [List.nil_append, List.length_nil, Nat.mul_zero] at hs hg
  unfold nearest
  simp only [hs, hg, length_flat]
  rw [if_neg (by simp), if_neg (by simp), if_neg (by omega), if_pos trivial]
  simp [row]

theorem nearest_between {pre post : List (ℕ × ℕ)} {b c : ℕ × ℕ} {i : ℕ}
    (hv : ∀ c ∈ pre ++ [b], c.1 ≤ c.2) (h : ∀ c ∈ pre ++ [b], c.2 < i) (h1 : i < c.1) :
    nearest x (pre ++ b :: c :: post) i =
      if x.getD i 0 - x.getD b.2 0 < |x.getD i 0 - x.getD c.1 0| then
        some (pre.length, x.getD i 0 - x.getD b.2 0)
      else some (pre.length + 1, x.getD i 0 - x.getD c.1 0) := by
  obtain ⟨hs, hg⟩ := searchsorted_between (post := post) hv h h1
  have e : (pre ++ [b]) ++ c :: post = pre ++ b :: c :: post := by simp
  rw [e] at hs hg
  simp only [List.length_append, List.length_singleton] at hs hg
  unfold nearest
  simp only [hs, hg, length_flat]
  have e1 : 2 * (pre.length + 1) / 2 = pre.length + 1 := by omega
  have r1 : row (pre ++ b :: c :: post) pre.length = b := by simp [row]
  have r2 : row (pre ++ b :: c :: post) (pre.length + 1) = c := by
    rw [← e, row, List.getD_eq_getElem?_getD, List.getElem?_append_right (by simp)]
    simp
  rw [if_neg (by simp), if_neg (by simp), if_neg (by omega), if_neg (by omega)]
  simp only [e1, Nat.add_sub_cancel, r1, r2]

/-- The four situations of a point relative to a table. -/
theorem situation {n : ℕ} {cs : List (ℕ × ℕ)} (h : WF n cs) (i : ℕ) :
    (∃ pre b, cs = pre ++ [b] ∧ (∀ c ∈ cs, c.2 < i)) ∨
    (∃ pre c post, cs = pre ++ c :: post ∧ (∀ c ∈ pre, c.2 < i) ∧ c.1 ≤ i ∧ i ≤ c.2) ∨
    (∃ c post, cs = c :: post ∧ (∀ c ∈ cs, i < c.1)) ∨
    (∃ pre b c post, cs = pre ++ b :: c :: post ∧ (∀ d ∈ pre ++ [b], d.2 < i) ∧
      (∀ d ∈ c :: post, i < d.1)) := by
  obtain ⟨pre, post, rfl, h1, h2⟩ := split_at h i
  have hpost : ∀ c ps, post = c :: ps → i < c.1 → ∀ d ∈ c :: ps, i < d.1 := by
    rintro c ps rfl hc d hd
    rcases List.mem_cons.1 hd with rfl | hd
    · exact hc
    · have ho := (List.pairwise_append.1 h.ordered).2.1
      have := (List.pairwise_cons.1 ho).1 d hd
      have := h.valid c (by simp)
      omega
  cases post with
  | nil =>
    left
    rcases List.eq_nil_or_concat pre with rfl | ⟨p, b, rfl⟩
    · exact absurd rfl h.nonempty
    · exact ⟨p, b, by simp, by simpa using h1⟩
  | cons c post =>
    by_cases hc : c.1 ≤ i
    · right; left
      exact ⟨pre, c, post, rfl, h1, hc, h2 c (by simp)⟩
    · rcases List.eq_nil_or_concat pre with rfl | ⟨p, b, rfl⟩
      · right; right; left
        exact ⟨c, post, rfl, hpost c post rfl (by omega)⟩
      · right; right; right
        exact ⟨p, b, c, post, by simp, by simpa using h1, hpost c post rfl (by omega)⟩

theorem getD_mono (hx : Nondecreasing x) {i j : ℕ} (hij : i ≤ j) (hj : j < x.length) :
    x.getD i 0 ≤ x.getD j 0 := by
  rcases hij.eq_or_lt with rfl | hij
  · exact le_rfl
  · have := List.pairwise_iff_getElem.1 hx i j (by omega) hj hij
    simpa [List.getD_eq_getElem?_getD, List.getElem?_eq_getElem, hj, show i < x.length by omega]
      using this

theorem getD_strict (hx : Increasing x) {i j : ℕ} (hij : i < j) (hj : j < x.length) :
    x.getD i 0 < x.getD j 0 := by
  have := List.pairwise_iff_getElem.1 hx i j (by omega) hj hij
  simpa [List.getD_eq_getElem?_getD, List.getElem?_eq_getElem, hj, show i < x.length by omega]
    using this

omit [AddCommGroup α] in
theorem Increasing.nondecreasing (hx : Increasing x) : Nondecreasing x :=
  hx.imp le_of_lt

theorem nearest_isSome {cs : List (ℕ × ℕ)} (h : WF n cs) (i : ℕ) :
    ∃ near, nearest x cs i = some near := by
  have hv : ∀ c ∈ cs, c.1 ≤ c.2 := fun c hc => (h.valid c hc).1
  rcases situation h i with ⟨pre, b, rfl, h1⟩ | ⟨pre, c, post, rfl, h1, h2, h3⟩ |
    ⟨c, post, rfl, h1⟩ | ⟨pre, b, c, post, rfl, h1, h2⟩
  · exact ⟨_, nearest_right hv h1⟩
  · exact ⟨_, nearest_inside (fun d hd => hv d (by simp [hd])) h1 h2 h3⟩
  · exact ⟨_, nearest_left (h1 c (by simp))⟩
  · rw [nearest_between (fun d hd => hv d (by simp at hd ⊢; tauto)) h1 (h2 c (by simp))]
    split <;> exact ⟨_, rfl⟩

theorem nearest_of_clustered {cs : List (ℕ × ℕ)} (h : WF n cs) {i : ℕ} (hi : Clustered cs i) :
    ∃ k, nearest x cs i = some (k, 0) ∧ k < cs.length ∧ (row cs k).1 ≤ i ∧ i ≤ (row cs k).2 := by
  have hv : ∀ c ∈ cs, c.1 ≤ c.2 := fun c hc => (h.valid c hc).1
  obtain ⟨d, hd, hd1, hd2⟩ := hi
  rcases situation h i with ⟨pre, b, rfl, h1⟩ | ⟨pre, c, post, rfl, h1, h2, h3⟩ |
    ⟨c, post, rfl, h1⟩ | ⟨pre, b, c, post, rfl, h1, h2⟩
  · have := h1 d hd; omega
  · exact ⟨_, nearest_inside (fun d hd => hv d (by simp [hd])) h1 h2 h3, by simp,
      by simpa [row] using h2, by simpa [row] using h3⟩
  · have := h1 d hd; omega
  · have : d ∈ pre ++ [b] ∨ d ∈ c :: post := by simp at hd ⊢; tauto
    rcases this with h' | h'
    · have := h1 d h'; omega
    · have := h2 d h'; omega

/-- Where an unclustered point with non-zero distance ends up. -/
theorem place_cases [IsOrderedAddMonoid α] {cs : List (ℕ × ℕ)} (hx : Nondecreasing x)
    (h : WF x.length cs) {i : ℕ}
    (hi : i < x.length) {near : ℕ × α} (hn : nearest x cs i = some near) (hz : near.2 ≠ 0)
    (res : α) :
    ∃ pre post, cs = pre ++ post ∧ (∀ c ∈ pre, c.2 < i) ∧ (∀ c ∈ post, i < c.1) ∧
      ((place res cs near i = (pre ++ (i, i) :: post, pre.length) ∧ res < |near.2|) ∨
       (|near.2| ≤ res ∧ ∃ p b, pre = p ++ [b] ∧ near = (p.length, x.getD i 0 - x.getD b.2 0) ∧
         place res cs near i = (p ++ (b.1, i) :: post, p.length)) ∨
       (|near.2| ≤ res ∧ ∃ c q, post = c :: q ∧ near = (pre.length, x.getD i 0 - x.getD c.1 0) ∧
         place res cs near i = (pre ++ (i, c.2) :: q, pre.length))) := by
  have hv : ∀ c ∈ cs, c.1 ≤ c.2 := fun c hc => (h.valid c hc).1
  -- growing the cluster on the left of the point / inserting right of it
  have right : ∀ p b post, cs = p ++ b :: post → b.2 < i →
      near = (p.length, x.getD i 0 - x.getD b.2 0) →
      (res < |near.2| → place res cs near i = (p ++ b :: (i, i) :: post, p.length + 1)) ∧
      (|near.2| ≤ res → place res cs near i = (p ++ (b.1, i) :: post, p.length)) := by
    rintro p b post hcs hb rfl
    have r1 : row cs p.length = b := by simp [row, hcs]
    have hbv := hv b (by simp [hcs])
    have hpos : 0 ≤ x.getD i 0 - x.getD b.2 0 := sub_nonneg.2 (getD_mono hx hb.le hi)
    constructor
    · intro hr
      unfold place
      rw [if_neg (not_le.2 hr), if_neg (not_lt.2 hpos)]
      have : p ++ b :: post = (p ++ [b]) ++ post := by simp
      have h2 : p.length + 1 = (p ++ [b]).length := by simp
      simp only [hcs, this]
      rw [h2, insertIdx_append]; simp
    · intro hr
      unfold place
      rw [if_pos hr, r1, if_neg (by omega)]
      simp [hcs]
  have left : ∀ p c post, cs = p ++ c :: post → i < c.1 →
      near = (p.length, x.getD i 0 - x.getD c.1 0) →
      (res < |near.2| → place res cs near i = (p ++ (i, i) :: c :: post, p.length)) ∧
      (|near.2| ≤ res → place res cs near i = (p ++ (i, c.2) :: post, p.length)) := by
    rintro p c post hcs hb rfl
    have r1 : row cs p.length = c := by simp [row, hcs]
    have hcv := h.valid c (by simp [hcs])
    have hpos : x.getD i 0 - x.getD c.1 0 ≤ 0 :=
      sub_nonpos.2 (getD_mono hx hb.le (by omega))
    constructor
    · intro hr
      unfold place
      rw [if_neg (not_le.2 hr), if_pos (lt_of_le_of_ne hpos hz)]
      simp only [hcs]
      rw [insertIdx_append]
    · intro hr
      unfold place
      rw [if_pos hr, r1, if_pos (by omega)]
      simp [hcs]
  rcases situation h i with ⟨pre, b, hcs, h1⟩ | ⟨pre, c, post, hcs, h1, h2, h3⟩ |
    ⟨c, post, hcs, h1⟩ | ⟨pre, b, c, post, hcs, h1, h2⟩
  · refine ⟨cs, [], by simp, h1, by simp, ?_⟩
    have hnear : near = (pre.length, x.getD i 0 - x.getD b.2 0) := by
      subst hcs
      rw [nearest_right hv h1] at hn
      exact (Option.some.inj hn).symm
    have := right pre b [] hcs (h1 b (by simp [hcs])) hnear
    rcases lt_or_ge res |near.2| with hr | hr
    · left; exact ⟨by rw [this.1 hr]; simp [hcs], hr⟩
    · right; left; exact ⟨hr, pre, b, hcs, hnear, by simpa using this.2 hr⟩
  · subst hcs
    rw [nearest_inside (fun d hd => hv d (by simp [hd])) h1 h2 h3] at hn
    exact absurd (by rw [← Option.some.inj hn]) hz
  · refine ⟨[], cs, by simp, by simp, h1, ?_⟩
    have hnear : near = (([] : List (ℕ × ℕ)).length, x.getD i 0 - x.getD c.1 0) := by
      subst hcs
      rw [nearest_left (h1 c (by simp))] at hn
      exact (Option.some.inj hn).symm
    have := left [] c post (by simpa using hcs) (h1 c (by simp [hcs])) hnear
    rcases lt_or_ge res |near.2| with hr | hr
    · left; exact ⟨by rw [this.1 hr]; simp [hcs], hr⟩
    · right; right; exact ⟨hr, c, post, hcs, hnear, by simpa using this.2 hr⟩
  · refine ⟨pre ++ [b], c :: post, by simp [hcs], h1, h2, ?_⟩
    have hor : near = (pre.length, x.getD i 0 - x.getD b.2 0) ∨
        near = ((pre ++ [b]).length, x.getD i 0 - x.getD c.1 0) := by
      have hv' := hv
      subst hcs
      rw [nearest_between (fun d hd => hv d (by simp at hd ⊢; tauto)) h1 (h2 c (by simp))] at hn
      split at hn
      · left; exact (Option.some.inj hn).symm
      · right; rw [← Option.some.inj hn]; simp
    rcases hor with hnear | hnear
    · have := right pre b (c :: post) hcs (h1 b (by simp)) hnear
      rcases lt_or_ge res |near.2| with hr | hr
      · left; exact ⟨by rw [this.1 hr]; simp, hr⟩
      · right; left; exact ⟨hr, pre, b, rfl, hnear, this.2 hr⟩
    · have := left (pre ++ [b]) c post (by simp [hcs]) (h2 c (by simp)) hnear
      rcases lt_or_ge res |near.2| with hr | hr
      · left; exact ⟨this.1 hr, hr⟩
      · right; right; exact ⟨hr, c, post, rfl, hnear, this.2 hr⟩

/-- Placing a point keeps the table well formed. -/
theorem wf_place [IsOrderedAddMonoid α] {cs : List (ℕ × ℕ)} (hx : Nondecreasing x)
    (h : WF x.length cs) {i : ℕ}
    (hi : i < x.length) {near : ℕ × α} (hn : nearest x cs i = some near) (hz : near.2 ≠ 0)
    (res : α) :
    WF x.length (place res cs near i).1 ∧ Clustered (place res cs near i).1 i ∧
      (∀ j, Clustered cs j → Clustered (place res cs near i).1 j) ∧
      ¬ Clustered cs i ∧ (place res cs near i).2 < (place res cs near i).1.length ∧
      (row (place res cs near i).1 (place res cs near i).2).1 ≤ i ∧
      i ≤ (row (place res cs near i).1 (place res cs near i).2).2 := by
  obtain ⟨pre, post, rfl, h1, h2, hc⟩ := place_cases hx h hi hn hz res
  have ho := List.pairwise_append.1 h.ordered
  have hnc : ¬ Clustered (pre ++ post) i := by
    rintro ⟨d, hd, hd1, hd2⟩
    rcases List.mem_append.1 hd with hd | hd
    · have := h1 d hd; omega
    · have := h2 d hd; omega
  rcases hc with ⟨hp, -⟩ | ⟨-, p, b, rfl, -, hp⟩ | ⟨-, c, q, rfl, -, hp⟩
  · rw [hp]
    refine ⟨⟨by simp, ?_, ?_⟩, ⟨(i, i), by simp, by simp⟩, ?_, hnc, by simp, by simp [row],
      by simp [row]⟩
    · intro d hd
      simp only [List.mem_append, List.mem_cons] at hd
      rcases hd with hd | rfl | hd
      · exact h.valid d (by simp [hd])
      · exact ⟨le_rfl, hi⟩
      · exact h.valid d (by simp [hd])
    · refine List.pairwise_append.2 ⟨ho.1, List.pairwise_cons.2 ⟨h2, ho.2.1⟩, ?_⟩
      intro a ha b hb
      rcases List.mem_cons.1 hb with rfl | hb
      · exact h1 a ha
      · exact ho.2.2 a ha b hb
    · rintro j ⟨d, hd, hj⟩
      exact ⟨d, by simp at hd ⊢; tauto, hj⟩
  · rw [hp]
    have hb := h1 b (by simp)
    have hbv := h.valid b (by simp)
    have hop := List.pairwise_append.1 ho.1
    refine ⟨⟨by simp, ?_, ?_⟩, ⟨(b.1, i), by simp, by dsimp; omega, le_rfl⟩, ?_, hnc, by simp,
      by simp [row]; omega, by simp [row]⟩
    · intro d hd
      simp only [List.mem_append, List.mem_cons] at hd
      rcases hd with hd | rfl | hd
      · exact h.valid d (by simp [hd])
      · exact ⟨by dsimp; omega, hi⟩
      · exact h.valid d (by simp [hd])
    · refine List.pairwise_append.2 ⟨hop.1, List.pairwise_cons.2 ⟨h2, ho.2.1⟩, ?_⟩
      intro a ha d hd
      rcases List.mem_cons.1 hd with rfl | hd
      · exact hop.2.2 a ha b (by simp)
      · exact ho.2.2 a (by simp [ha]) d hd
    · rintro j ⟨d, hd, hj⟩
      simp only [List.mem_append, List.mem_cons, List.not_mem_nil, or_false] at hd
      rcases hd with (hd | rfl) | hd
      · exact ⟨d, by simp [hd], hj⟩
      · exact ⟨(d.1, i), by simp, hj.1, by dsimp; omega⟩
      · exact ⟨d, by simp [hd], hj⟩
  · rw [hp]
    have hc := h2 c (by simp)
    have hcv := h.valid c (by simp)
    have hop := List.pairwise_cons.1 ho.2.1
    refine ⟨⟨by simp, ?_, ?_⟩, ⟨(i, c.2), by simp, le_rfl, by dsimp; omega⟩, ?_, hnc, by simp,
      by simp [row], by simp [row]; omega⟩
    · intro d hd
      simp only [List.mem_append, List.mem_cons] at hd
      rcases hd with hd | rfl | hd
      · exact h.valid d (by simp [hd])
      · exact ⟨by dsimp; omega, hcv.2⟩
      · exact h.valid d (by simp [hd])
    · refine List.pairwise_append.2 ⟨ho.1, List.pairwise_cons.2 ⟨hop.1, hop.2⟩, ?_⟩
      intro a ha d hd
      rcases List.mem_cons.1 hd with rfl | hd
      · exact h1 a ha
      · exact ho.2.2 a ha d (by simp [hd])
    · rintro j ⟨d, hd, hj⟩
      simp only [List.mem_append, List.mem_cons] at hd
      rcases hd with hd | rfl | hd
      · exact ⟨d, by simp [hd], hj⟩
      · exact ⟨(i, d.2), by simp, by dsimp; omega, hj.2⟩
      · exact ⟨d, by simp [hd], hj⟩

/-- What the search loop of `__next__` finds. -/
theorem scan_spec {cs : List (ℕ × ℕ)} (h : WF n cs) (order : List ℕ) (cur : ℕ) (k t : ℕ) :
    ∃ cur' near t', scan x cs order cur (k, (0 : α)) t = .ok (cur', near, t') ∧
      ((cur' = 0 ∧ near.2 = 0 ∧
          ∀ j < cur, ∃ m, nearest x cs (order.getD j 0) = some (m, 0)) ∨
       (cur' < cur ∧ near.2 ≠ 0 ∧ t' = order.getD cur' 0 ∧ nearest x cs t' = some near ∧
          ∀ j < cur, cur' < j → ∃ m, nearest x cs (order.getD j 0) = some (m, 0))) := by
  induction cur generalizing k t with
  | zero => exact ⟨0, (k, 0), t, rfl, .inl ⟨rfl, rfl, by simp⟩⟩
  | succ cur ih =>
    obtain ⟨near, hnear⟩ := nearest_isSome (x := x) h (order.getD cur 0)
    have e : scan x cs order (cur + 1) (k, (0 : α)) t
        = scan x cs order cur near (order.getD cur 0) := by
      rw [scan, if_pos rfl, hnear]
    rw [e]
    by_cases hz : near.2 = 0
    · obtain ⟨m, z⟩ := near
      obtain rfl : z = 0 := hz
      obtain ⟨cur', near', t', h1, h2⟩ := ih m (order.getD cur 0)
      refine ⟨cur', near', t', h1, ?_⟩
      rcases h2 with ⟨a, b, c⟩ | ⟨a, b, c, d, e⟩
      · left
        refine ⟨a, b, ?_⟩
        intro j hj
        rcases Nat.lt_succ_iff_lt_or_eq.1 hj with hj | rfl
        · exact c j hj
        · exact ⟨m, hnear⟩
      · right
        refine ⟨by omega, b, c, d, ?_⟩
        intro j hj hj'
        rcases Nat.lt_succ_iff_lt_or_eq.1 hj with hj | rfl
        · exact e j hj hj'
        · exact ⟨m, hnear⟩
    · refine ⟨cur, near, order.getD cur 0, ?_, .inr ⟨by omega, hz, rfl, hnear, ?_⟩⟩
      · cases cur with
        | zero => rfl
        | succ c => rw [scan, if_neg hz]
      · intro j h1 h2; omega

end Verif.Cluster
