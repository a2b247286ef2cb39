import Verif.Cluster.Lemmas
import Mathlib.Data.List.Nodup
import Mathlib.Data.List.Pairwise

/-! Helper lemmas about `combine_clusters` and `find_adjacent_clusters`. -/

namespace Verif.Cluster

set_option linter.unusedSectionVars false

variable {α : Type} [AddCommGroup α] [LinearOrder α]

theorem row_mem {cs : List (ℕ × ℕ)} {i : ℕ} (h : i < cs.length) : row cs i ∈ cs := by
  simp [row, h]

theorem mem_iff_row {cs : List (ℕ × ℕ)} {c : ℕ × ℕ} :
    c ∈ cs ↔ ∃ i < cs.length, row cs i = c := by
  constructor
  · intro h
    obtain ⟨i, hi, rfl⟩ := List.mem_iff_getElem.1 h
    exact ⟨i, hi, by simp [row, hi]⟩
  · rintro ⟨i, hi, rfl⟩
    exact row_mem hi

theorem WF.row_valid {n : ℕ} {cs : List (ℕ × ℕ)} (h : WF n cs) {i : ℕ} (hi : i < cs.length) :
    (row cs i).1 ≤ (row cs i).2 ∧ (row cs i).2 < n := h.valid _ (row_mem hi)

theorem WF.row_lt {n : ℕ} {cs : List (ℕ × ℕ)} (h : WF n cs) {i j : ℕ} (hij : i < j)
    (hj : j < cs.length) : (row cs i).2 < (row cs j).1 := by
  have := List.pairwise_iff_getElem.1 h.ordered i j (by omega) hj hij
  simpa [row, hj, show i < cs.length by omega] using this

theorem WF.of_row {n : ℕ} {cs : List (ℕ × ℕ)} (h0 : 0 < cs.length)
    (h1 : ∀ i < cs.length, (row cs i).1 ≤ (row cs i).2 ∧ (row cs i).2 < n)
    (h2 : ∀ i j, i < j → j < cs.length → (row cs i).2 < (row cs j).1) : WF n cs := by
  refine ⟨List.length_pos_iff.1 h0, ?_, ?_⟩
  · intro c hc
    obtain ⟨i, hi, rfl⟩ := mem_iff_row.1 hc
    exact h1 i hi
  · rw [List.pairwise_iff_getElem]
    intro i j hi hj hij
    have := h2 i j hij hj
    simpa [row, hi, hj] using this

theorem row_set {cs : List (ℕ × ℕ)} {i j : ℕ} {c : ℕ × ℕ} (hj : j < cs.length) :
    row (cs.set i c) j = if i = j then c else row cs j := by
  by_cases h : i = j
  · subst h; simp [row, hj]
  · simp [row, h]

theorem clustered_iff_row {cs : List (ℕ × ℕ)} {p : ℕ} :
    Clustered cs p ↔ ∃ i < cs.length, (row cs i).1 ≤ p ∧ p ≤ (row cs i).2 := by
  constructor
  · rintro ⟨c, hc, h⟩
    obtain ⟨i, hi, rfl⟩ := mem_iff_row.1 hc
    exact ⟨i, hi, h⟩
  · rintro ⟨i, hi, h⟩
    exact ⟨_, row_mem hi, h⟩

/-! ### Deleting rows -/

theorem mem_deleteRows {td : List ℕ} {cs : List (ℕ × ℕ)} {k : ℕ} {c : ℕ × ℕ} :
    c ∈ deleteRows td k cs ↔ ∃ i < cs.length, k + i ∉ td ∧ row cs i = c := by
  induction cs generalizing k with
  | nil => simp [deleteRows]
  | cons d cs ih =>
    have key : (∃ i < (d :: cs).length, k + i ∉ td ∧ row (d :: cs) i = c) ↔
        (k ∉ td ∧ d = c) ∨ ∃ i < cs.length, (k + 1) + i ∉ td ∧ row cs i = c := by
      constructor
      · rintro ⟨i, hi, h1, h2⟩
        cases i with
        | zero => left; exact ⟨by simpa using h1, by simpa [row] using h2⟩
        | succ i =>
          right
          refine ⟨i, by simpa using hi, ?_, by simpa [row] using h2⟩
          rwa [show k + 1 + i = k + (i + 1) by omega]
      · rintro (⟨h1, h2⟩ | ⟨i, hi, h1, h2⟩)
        · exact ⟨0, by simp, by simpa using h1, by simpa [row] using h2⟩
        · refine ⟨i + 1, by simpa using hi, ?_, by simpa [row] using h2⟩
          rwa [show k + (i + 1) = k + 1 + i by omega]
    rw [key]
    by_cases hk : k ∈ td
    · simp [deleteRows, hk, ih]
    · simp [deleteRows, hk, ih, eq_comm]

theorem pairwise_deleteRows {td : List ℕ} {cs : List (ℕ × ℕ)} {k : ℕ}
    {R : ℕ × ℕ → ℕ × ℕ → Prop}
    (h : ∀ i j, i < j → j < cs.length → k + i ∉ td → k + j ∉ td → R (row cs i) (row cs j)) :
    (deleteRows td k cs).Pairwise R := by
  induction cs generalizing k with
  | nil => simp [deleteRows]
  | cons d cs ih =>
    have htail : (deleteRows td (k + 1) cs).Pairwise R := by
      apply ih
      intro i j hij hj h1 h2
      have := h (i + 1) (j + 1) (by omega) (by simpa using hj)
        (by rwa [show k + (i + 1) = k + 1 + i by omega])
        (by rwa [show k + (j + 1) = k + 1 + j by omega])
      simpa [row] using this
    rw [deleteRows]
    split
    · exact htail
    · rename_i hk
      refine List.pairwise_cons.2 ⟨?_, htail⟩
      intro c hc
      obtain ⟨i, hi, h1, rfl⟩ := mem_deleteRows.1 hc
      have := h 0 (i + 1) (by omega) (by simpa using hi) (by simpa using hk)
        (by rwa [show k + (i + 1) = k + 1 + i by omega])
      simpa [row] using this

/-! ### Groups -/

/-- A group of consecutive, mutually touching clusters. -/
structure GoodGroup (cs : List (ℕ × ℕ)) (c : List ℕ) : Prop where
  run : c = List.range' (c.getD 0 0) c.length
  ne : c ≠ []
  bound : ∀ i ∈ c, i < cs.length
  touch : ∀ i, i ∈ c → i + 1 ∈ c → (row cs (i + 1)).1 = (row cs i).2 + 1

theorem checkGroup_spec {cs : List (ℕ × ℕ)} {c : List ℕ} {first : ℕ} {k i : ℕ} (hi : first ≤ i)
    (h : checkGroup cs c first k i = .ok) :
    ∀ j, i ≤ j → j < i + k →
      j + 1 - first < c.length ∧ c.getD (j + 1 - first) 0 = c.getD (j - first) 0 + 1 ∧
      j + 1 < cs.length ∧ (row cs (j + 1)).1 = (row cs j).2 + 1 := by
  induction k generalizing i with
  | zero => intro j h1 h2; omega
  | succ k ih =>
    rw [checkGroup] at h
    have hb : (if i + 1 < c.length then Outcome.valueError else Outcome.indexError) ≠ .ok := by
      split <;> simp
    split at h
    · simp at h
    · split at h
      · exact absurd h hb
      · split at h
        · simp at h
        · split at h
          · exact absurd h hb
          · rename_i h1 h2 h3 h4
            intro j hj1 hj2
            rcases hj1.eq_or_lt with rfl | hj1
            · exact ⟨by omega, by omega, by omega, by omega⟩
            · exact ih (by omega) h j (by omega) (by omega)

theorem checkGroup_ok {cs : List (ℕ × ℕ)} {c : List ℕ} {first : ℕ} {k i : ℕ} (hi : first ≤ i)
    (h : ∀ j, i ≤ j → j < i + k →
      j + 1 - first < c.length ∧ c.getD (j + 1 - first) 0 = c.getD (j - first) 0 + 1 ∧
      j + 1 < cs.length ∧ (row cs (j + 1)).1 = (row cs j).2 + 1) :
    checkGroup cs c first k i = .ok := by
  induction k generalizing i with
  | zero => rfl
  | succ k ih =>
    obtain ⟨h1, h2, h3, h4⟩ := h i le_rfl (by omega)
    rw [checkGroup]
    rw [if_neg (by omega), if_neg (by omega), if_neg (by omega), if_neg (by omega)]
    exact ih (by omega) (fun j a b => h j (by omega) (by omega))

theorem GoodGroup.mem_iff {cs : List (ℕ × ℕ)} {c : List ℕ} (h : GoodGroup cs c) (i : ℕ) :
    i ∈ c ↔ c.getD 0 0 ≤ i ∧ i ≤ c.getD (c.length - 1) 0 := by
  have hl : 0 < c.length := List.length_pos_iff.2 h.ne
  have hlast : c.getD (c.length - 1) 0 = c.getD 0 0 + (c.length - 1) := by
    conv_lhs => rw [h.run]
    simp [hl]
  rw [hlast]
  conv_lhs => rw [h.run]
  rw [List.mem_range'_1]
  omega

/-- An accepted, strictly increasing group is a run of touching clusters. -/
theorem goodGroup_of_check {cs : List (ℕ × ℕ)} {first : ℕ} {t : List ℕ}
    (hinc : (first :: t).Pairwise (· < ·))
    (h : checkGroup cs (first :: t) first
      ((first :: t).getD ((first :: t).length - 1) 0 - first) first = .ok)
    (hb : first < cs.length ∧ (first :: t).getD ((first :: t).length - 1) 0 < cs.length) :
    GoodGroup cs (first :: t) := by
  set c := first :: t with hc
  have hl : 0 < c.length := by simp [hc]
  have h0 : c.getD 0 0 = first := by simp [hc]
  have hs := checkGroup_spec le_rfl h
  set last := c.getD (c.length - 1) 0 with hlast
  have hstrict : ∀ i j, i < j → j < c.length → c.getD i 0 < c.getD j 0 := by
    intro i j hij hj
    have := List.pairwise_iff_getElem.1 hinc i j (by omega) hj hij
    simpa [hj, show i < c.length by omega] using this
  -- element k equals first + k as long as k ≤ last - first
  have hk : ∀ k, k ≤ last - first → k < c.length ∧ c.getD k 0 = first + k := by
    intro k
    induction k with
    | zero => intro _; exact ⟨hl, by simpa using h0⟩
    | succ k ih =>
      intro hle
      obtain ⟨a, b⟩ := ih (by omega)
      obtain ⟨p, q, -, -⟩ := hs (first + k) (by omega) (by omega)
      have e1 : first + k + 1 - first = k + 1 := by omega
      have e2 : first + k - first = k := by omega
      rw [e1] at p q
      rw [e2] at q
      exact ⟨p, by omega⟩
  have hfl : first ≤ last := by
    rcases Nat.eq_or_lt_of_le (show 1 ≤ c.length from hl) with e | e
    · rw [hlast, ← e]; simp [hc]
    · have := hstrict 0 (c.length - 1) (by omega) (by omega)
      omega
  have hlen : c.length = last - first + 1 := by
    obtain ⟨a, b⟩ := hk (last - first) le_rfl
    by_contra hne
    have := hstrict (last - first) (c.length - 1) (by omega) (by omega)
    omega
  have hrun : c = List.range' (c.getD 0 0) c.length := by
    apply List.ext_getElem (by simp)
    intro k h1 h2
    have := (hk k (by omega)).2
    rw [List.getElem_range', h0]
    simp [h1] at this
    omega
  have hmem : ∀ i, i ∈ c ↔ first ≤ i ∧ i ≤ last := by
    intro i
    conv_lhs => rw [hrun]
    rw [List.mem_range'_1, h0]
    omega
  refine ⟨hrun, by simp [hc], ?_, ?_⟩
  · intro i hi
    have := (hmem i).1 hi
    omega
  · intro i hi hi'
    have a := (hmem i).1 hi
    have b := (hmem (i + 1)).1 hi'
    exact (hs i a.1 (by omega)).2.2.2

theorem check_of_goodGroup {cs : List (ℕ × ℕ)} {first : ℕ} {t : List ℕ}
    (h : GoodGroup cs (first :: t)) :
    checkGroup cs (first :: t) first
      ((first :: t).getD ((first :: t).length - 1) 0 - first) first = .ok := by
  have hmem := h.mem_iff
  set c := first :: t with hc
  have hl : 0 < c.length := by simp [hc]
  have h0 : c.getD 0 0 = first := by simp [hc]
  have hget : ∀ k < c.length, c.getD k 0 = first + k := by
    intro k hk
    rw [h.run, h0]
    simp [hk]
  have hlast := hget (c.length - 1) (by omega)
  apply checkGroup_ok le_rfl
  intro j hj1 hj2
  have m1 := (hmem j).2 (by omega)
  have m2 := (hmem (j + 1)).2 (by omega)
  refine ⟨by omega, ?_, h.bound _ m2, h.touch _ m1 m2⟩
  rw [hget _ (by omega), hget _ (by omega)]
  omega

theorem goodGroup_congr {cs cs' : List (ℕ × ℕ)} {c : List ℕ} (hl : cs'.length = cs.length)
    (hr : ∀ i ∈ c, row cs' i = row cs i) (h : GoodGroup cs c) : GoodGroup cs' c :=
  ⟨h.run, h.ne, fun i hi => hl ▸ h.bound i hi, fun i hi hi' => by
    rw [hr i hi, hr _ hi']; exact h.touch i hi hi'⟩

/-- What the loop over groups does when it succeeds. -/
theorem combineLoop_ok {cs cs' : List (ℕ × ℕ)} {gs : List (List ℕ)}
    (hinc : ∀ c ∈ gs, c.Pairwise (· < ·)) (hnd : gs.flatten.Nodup)
    (h : combineLoop cs gs = (.ok, cs')) :
    (∀ c ∈ gs, GoodGroup cs c) ∧ cs'.length = cs.length ∧
      (∀ c ∈ gs, row cs' (c.getD 0 0) =
        ((row cs (c.getD 0 0)).1, (row cs (c.getD (c.length - 1) 0)).2)) ∧
      (∀ i < cs.length, (∀ c ∈ gs, c.getD 0 0 ≠ i) → row cs' i = row cs i) := by
  induction gs generalizing cs with
  | nil =>
    simp only [combineLoop, Prod.mk.injEq, true_and] at h
    subst h
    simp
  | cons c gs ih =>
    cases c with
    | nil => simp [combineLoop] at h
    | cons first t =>
      rw [combineLoop] at h
      try simp only at h
      split at h
      · rename_i hchk
        split at h
        · simp at h
        · rename_i hb
          push Not at hb
          have hg := goodGroup_of_check (hinc _ (by simp)) hchk hb
          set c := first :: t with hc
          have h0 : c.getD 0 0 = first := by simp [hc]
          set last := c.getD (c.length - 1) 0 with hlast
          set cs1 := cs.set first ((row cs first).1, (row cs last).2) with hcs1
          have hl1 : cs1.length = cs.length := by simp [hcs1]
          rw [List.flatten_cons, List.nodup_append] at hnd
          obtain ⟨-, hnd2, hdis⟩ := hnd
          obtain ⟨ih1, ih2, ih3, ih4⟩ := ih (fun d hd => hinc d (by simp [hd])) hnd2 h
          have hfirst : first ∈ c := by simp [hc]
          have hnotin : ∀ d ∈ gs, ∀ i ∈ d, i ≠ first := by
            intro d hd i hi e
            exact hdis first hfirst i (List.mem_flatten.2 ⟨d, hd, hi⟩) e.symm
          have hrow : ∀ i < cs.length, i ≠ first → row cs1 i = row cs i := by
            intro i hi hne
            rw [hcs1, row_set hi, if_neg (Ne.symm hne)]
          have hgood : ∀ d ∈ gs, GoodGroup cs d := by
            intro d hd
            refine goodGroup_congr hl1.symm ?_ (ih1 d hd)
            intro i hi
            exact (hrow i (hl1 ▸ (ih1 d hd).bound i hi) (hnotin d hd i hi)).symm
          have hmem0 : ∀ d ∈ gs, d.getD 0 0 ∈ d := by
            intro d hd
            have := List.length_pos_iff.2 (hgood d hd).ne
            simp [this]
          have hmemL : ∀ d ∈ gs, d.getD (d.length - 1) 0 ∈ d := by
            intro d hd
            have := List.length_pos_iff.2 (hgood d hd).ne
            simp [this]
          refine ⟨?_, by omega, ?_, ?_⟩
          · intro d hd
            rcases List.mem_cons.1 hd with rfl | hd
            · exact hg
            · exact hgood d hd
          · intro d hd
            rcases List.mem_cons.1 hd with rfl | hd
            · rw [h0, ih4 first (by omega) (fun d hd e => hnotin d hd _ (hmem0 d hd) e), hcs1,
                row_set hb.1, if_pos rfl]
            · rw [ih3 d hd, hrow _ ((hgood d hd).bound _ (hmem0 d hd)) (hnotin d hd _ (hmem0 d hd)),
                hrow _ ((hgood d hd).bound _ (hmemL d hd)) (hnotin d hd _ (hmemL d hd))]
          · intro i hi hne
            rw [ih4 i (by omega) (fun d hd => hne d (by simp [hd]))]
            exact hrow i hi (fun e => hne c (by simp) (by rw [h0, e]))
      · rename_i e hne
        simp only [Prod.mk.injEq] at h
        exact absurd h.1 hne

/-- The loop accepts good groups. -/
theorem combineLoop_of_good {cs : List (ℕ × ℕ)} {gs : List (List ℕ)}
    (hnd : gs.flatten.Nodup) (hg : ∀ c ∈ gs, GoodGroup cs c) :
    ∃ cs', combineLoop cs gs = (.ok, cs') := by
  induction gs generalizing cs with
  | nil => exact ⟨cs, rfl⟩
  | cons c gs ih =>
    have hgc := hg c (by simp)
    cases c with
    | nil => exact absurd rfl hgc.ne
    | cons first t =>
      rw [combineLoop]
      try simp only
      rw [check_of_goodGroup hgc]
      have hlast : (first :: t).getD ((first :: t).length - 1) 0 ∈ first :: t := by
        simp
      have b1 := hgc.bound first (by simp)
      have b2 := hgc.bound _ hlast
      simp only
      rw [if_neg (by omega)]
      rw [List.flatten_cons, List.nodup_append] at hnd
      apply ih hnd.2.1
      intro d hd
      refine goodGroup_congr (by simp) ?_ (hg d (by simp [hd]))
      intro i hi
      rw [row_set ((hg d (by simp [hd])).bound i hi), if_neg]
      intro e
      exact hnd.2.2 first (by simp) i (List.mem_flatten.2 ⟨d, hd, hi⟩) e

/-- Two good groups sharing no index are ordered. -/
theorem GoodGroup.last_mem {cs : List (ℕ × ℕ)} {c : List ℕ} (h : GoodGroup cs c) :
    c.getD (c.length - 1) 0 ∈ c := by
  have := List.length_pos_iff.2 h.ne
  simp [this]

theorem GoodGroup.first_mem {cs : List (ℕ × ℕ)} {c : List ℕ} (h : GoodGroup cs c) :
    c.getD 0 0 ∈ c := by
  have := List.length_pos_iff.2 h.ne
  simp [this]

theorem GoodGroup.mem_tail_iff {cs : List (ℕ × ℕ)} {c : List ℕ} (h : GoodGroup cs c) (i : ℕ) :
    i ∈ c.tail ↔ c.getD 0 0 < i ∧ i ≤ c.getD (c.length - 1) 0 := by
  have hl : 0 < c.length := List.length_pos_iff.2 h.ne
  have hlast : c.getD (c.length - 1) 0 = c.getD 0 0 + (c.length - 1) := by
    conv_lhs => rw [h.run]
    simp [hl]
  rw [hlast]
  conv_lhs => rw [h.run]
  rw [List.tail_range', List.mem_range'_1]
  omega

/-- Points of a run of touching clusters. -/
theorem GoodGroup.covered {n : ℕ} {cs : List (ℕ × ℕ)} {c : List ℕ} (h : GoodGroup cs c)
    (_hw : WF n cs) {p : ℕ} (h1 : (row cs (c.getD 0 0)).1 ≤ p)
    (h2 : p ≤ (row cs (c.getD (c.length - 1) 0)).2) :
    ∃ i ∈ c, (row cs i).1 ≤ p ∧ p ≤ (row cs i).2 := by
  have hl := (h.mem_iff _).1 h.last_mem
  -- walk right from the first cluster
  have key : ∀ k, c.getD 0 0 + k ≤ c.getD (c.length - 1) 0 →
      p ≤ (row cs (c.getD 0 0 + k)).2 → ∃ i ∈ c, (row cs i).1 ≤ p ∧ p ≤ (row cs i).2 := by
    intro k
    induction k with
    | zero => intro _ hp; exact ⟨_, h.first_mem, h1, hp⟩
    | succ k ih =>
      intro hk hp
      by_cases hp' : p ≤ (row cs (c.getD 0 0 + k)).2
      · exact ih (by omega) hp'
      · have m1 := (h.mem_iff (c.getD 0 0 + k)).2 (by omega)
        have m2 := (h.mem_iff (c.getD 0 0 + k + 1)).2 (by omega)
        have := h.touch _ m1 m2
        exact ⟨_, m2, by omega, hp⟩
  refine key (c.getD (c.length - 1) 0 - c.getD 0 0) (by omega) ?_
  rwa [show c.getD 0 0 + (c.getD (c.length - 1) 0 - c.getD 0 0) = c.getD (c.length - 1) 0 by omega]

/-- Everything a successful `combine` does to the table. -/
structure Combined (n : ℕ) (cs : List (ℕ × ℕ)) (gs : List (List ℕ)) (cs' : List (ℕ × ℕ)) : Prop where
  good : ∀ c ∈ gs, GoodGroup cs c
  wf : WF n cs'
  covered : ∀ p, Clustered cs' p ↔ Clustered cs p
  rows : ∀ c, c ∈ cs' ↔
    (∃ i < cs.length, i ∉ gs.flatten ∧ c = row cs i) ∨
    (∃ g ∈ gs, c = ((row cs (g.getD 0 0)).1, (row cs (g.getD (g.length - 1) 0)).2))

theorem combine_ok_spec {n : ℕ} {s : State α} {gs : List (List ℕ)} (hw : WF n s.clusters)
    (hinc : ∀ c ∈ gs, c.Pairwise (· < ·)) (h : (combine s gs).1 = .ok) :
    Combined n s.clusters gs (combine s gs).2.clusters ∧
      (combine s gs).2 = { s with clusters := (combine s gs).2.clusters } := by
  unfold combine at h ⊢
  split at h
  · simp at h
  rename_i hrect
  split at h
  · simp at h
  rename_i hnd
  rw [not_not] at hnd
  rw [if_neg hrect, if_neg (not_not.2 hnd)]
  cases hloop : combineLoop s.clusters gs with
  | mk o cs1 =>
  rw [hloop] at h
  cases o <;> simp only at h ⊢
  case ok =>
    split at h
    · simp at h
    rename_i htd
    rw [if_neg htd]
    refine ⟨?_, rfl⟩
    obtain ⟨hg, hl, hhead, hother⟩ := combineLoop_ok hinc hnd hloop
    set cs := s.clusters with hcs
    set td := (gs.map List.tail).flatten with htdd
    have mem_td : ∀ i, i ∈ td ↔ ∃ g ∈ gs, g.getD 0 0 < i ∧ i ≤ g.getD (g.length - 1) 0 := by
      intro i
      rw [htdd, List.mem_flatten]
      constructor
      · rintro ⟨l, hl, hi⟩
        obtain ⟨g, hgm, rfl⟩ := List.mem_map.1 hl
        exact ⟨g, hgm, ((hg g hgm).mem_tail_iff i).1 hi⟩
      · rintro ⟨g, hgm, hi⟩
        exact ⟨g.tail, List.mem_map.2 ⟨g, hgm, rfl⟩, ((hg g hgm).mem_tail_iff i).2 hi⟩
    -- groups do not share members
    have uniq : ∀ g ∈ gs, ∀ g' ∈ gs, ∀ i, i ∈ g → i ∈ g' → g = g' := by
      have hp := (List.nodup_flatten.1 hnd).2
      intro g hg1 g' hg2 i hi hi'
      by_contra hne
      have : ∀ a ∈ gs, ∀ b ∈ gs, a ≠ b → List.Disjoint a b := by
        intro a ha b hb hab
        have : Std.Symm (List.Disjoint (α := ℕ)) := ⟨fun _ _ h _ ha hb => h hb ha⟩
        exact hp.forall ha hb hab
      exact this g hg1 g' hg2 hne hi hi'
    have head_notin : ∀ g ∈ gs, g.getD 0 0 ∉ td := by
      intro g hgm hin
      obtain ⟨g', hgm', h1, h2⟩ := (mem_td _).1 hin
      have e := uniq g hgm g' hgm' _ (hg g hgm).first_mem (((hg g' hgm').mem_iff _).2 ⟨h1.le, h2⟩)
      subst e
      omega
    have hi1 : ∀ i < cs.length, i ∉ td →
        (∃ g ∈ gs, g.getD 0 0 = i ∧
          row cs1 i = ((row cs i).1, (row cs (g.getD (g.length - 1) 0)).2)) ∨
        (i ∉ gs.flatten ∧ row cs1 i = row cs i) := by
      intro i hi hni
      by_cases hex : ∃ g ∈ gs, g.getD 0 0 = i
      · obtain ⟨g, hgm, rfl⟩ := hex
        exact .inl ⟨g, hgm, rfl, hhead g hgm⟩
      · push Not at hex
        refine .inr ⟨?_, hother i hi hex⟩
        intro hin
        obtain ⟨g, hgm, hig⟩ := List.mem_flatten.1 hin
        have := ((hg g hgm).mem_iff i).1 hig
        have := hex g hgm
        exact hni ((mem_td i).2 ⟨g, hgm, by omega, by omega⟩)
    have hrows : ∀ c, c ∈ deleteRows td 0 cs1 ↔
        (∃ i < cs.length, i ∉ gs.flatten ∧ c = row cs i) ∨
        (∃ g ∈ gs, c = ((row cs (g.getD 0 0)).1, (row cs (g.getD (g.length - 1) 0)).2)) := by
      intro c
      rw [mem_deleteRows]
      constructor
      · rintro ⟨i, hi, hni, rfl⟩
        rw [Nat.zero_add] at hni
        rcases hi1 i (hl ▸ hi) hni with ⟨g, hgm, h1, h2⟩ | ⟨h1, h2⟩
        · right; exact ⟨g, hgm, by rw [h2, h1]⟩
        · left; exact ⟨i, hl ▸ hi, h1, h2⟩
      · rintro (⟨i, hi, hni, rfl⟩ | ⟨g, hgm, rfl⟩)
        · have hnt : i ∉ td := by
            intro hin
            obtain ⟨g, hgm, h1, h2⟩ := (mem_td i).1 hin
            exact hni (List.mem_flatten.2 ⟨g, hgm, ((hg g hgm).mem_iff i).2 ⟨h1.le, h2⟩⟩)
          refine ⟨i, hl ▸ hi, by simpa using hnt, ?_⟩
          apply hother i hi
          intro g hgm e
          exact hni (List.mem_flatten.2 ⟨g, hgm, e ▸ (hg g hgm).first_mem⟩)
        · exact ⟨g.getD 0 0, by rw [hl]; exact (hg g hgm).bound _ (hg g hgm).first_mem,
            by simpa using head_notin g hgm, hhead g hgm⟩
    have hspan : ∀ g ∈ gs, (row cs (g.getD 0 0)).1 ≤ (row cs (g.getD (g.length - 1) 0)).2 ∧
        (row cs (g.getD (g.length - 1) 0)).2 < n := by
      intro g hgm
      have b1 := hw.row_valid ((hg g hgm).bound _ (hg g hgm).first_mem)
      have b2 := hw.row_valid ((hg g hgm).bound _ (hg g hgm).last_mem)
      rcases Nat.eq_or_lt_of_le (((hg g hgm).mem_iff _).1 (hg g hgm).first_mem).2 with e | e
      · rw [← e]; exact b1
      · have := hw.row_lt e ((hg g hgm).bound _ (hg g hgm).last_mem)
        omega
    refine ⟨hg, ⟨?_, ?_, ?_⟩, ?_, hrows⟩
    · -- non-empty
      have hpos : 0 < cs.length := List.length_pos_iff.2 hw.nonempty
      rw [← List.length_pos_iff, List.length_pos_iff_exists_mem]
      by_cases h0 : 0 ∈ gs.flatten
      · obtain ⟨g, hgm, -⟩ := List.mem_flatten.1 h0
        exact ⟨_, (hrows _).2 (.inr ⟨g, hgm, rfl⟩)⟩
      · exact ⟨_, (hrows _).2 (.inl ⟨0, hpos, h0, rfl⟩)⟩
    · intro c hc
      rcases (hrows c).1 hc with ⟨i, hi, -, rfl⟩ | ⟨g, hgm, rfl⟩
      · exact hw.row_valid hi
      · exact hspan g hgm
    · apply pairwise_deleteRows
      intro i j hij hj hni hnj
      rw [Nat.zero_add] at hni hnj
      rw [hl] at hj
      have hlo : (row cs1 j).1 = (row cs j).1 := by
        rcases hi1 j hj hnj with ⟨g, -, -, h2⟩ | ⟨-, h2⟩ <;> rw [h2]
      rw [hlo]
      rcases hi1 i (by omega) hni with ⟨g, hgm, h1, h2⟩ | ⟨-, h2⟩
      · rw [h2]
        apply hw.row_lt _ hj
        by_contra hcon
        exact hnj ((mem_td j).2 ⟨g, hgm, by omega, by omega⟩)
      · rw [h2]; exact hw.row_lt hij hj
    · intro p
      constructor
      · rintro ⟨c, hc, hp1, hp2⟩
        rcases (hrows c).1 hc with ⟨i, hi, -, rfl⟩ | ⟨g, hgm, rfl⟩
        · exact ⟨_, row_mem hi, hp1, hp2⟩
        · obtain ⟨i, hig, hp⟩ := (hg g hgm).covered hw hp1 hp2
          exact ⟨_, row_mem ((hg g hgm).bound i hig), hp⟩
      · intro hp
        obtain ⟨i, hi, hp1, hp2⟩ := clustered_iff_row.1 hp
        by_cases hin : i ∈ gs.flatten
        · obtain ⟨g, hgm, hig⟩ := List.mem_flatten.1 hin
          refine ⟨_, (hrows _).2 (.inr ⟨g, hgm, rfl⟩), ?_, ?_⟩
          · have a := (((hg g hgm).mem_iff i).1 hig).1
            rcases a.eq_or_lt with e | e
            · dsimp only; rw [e]; exact hp1
            · have := hw.row_lt e hi
              have := hw.row_valid (i := g.getD 0 0) (by omega)
              dsimp only; omega
          · have a := (((hg g hgm).mem_iff i).1 hig).2
            have hb := (hg g hgm).bound _ (hg g hgm).last_mem
            rcases a.eq_or_lt with e | e
            · dsimp only; rw [← e]; exact hp2
            · have := hw.row_lt e hb
              have := hw.row_valid hb
              dsimp only; omega
        · exact ⟨_, (hrows _).2 (.inl ⟨i, hi, hin, rfl⟩), hp1, hp2⟩
  all_goals simp at h

/-- A raising call with at most one group changes nothing. -/
theorem combine_single_raise {s : State α} {gs : List (List ℕ)} (hlen : gs.length ≤ 1)
    (hinc : ∀ c ∈ gs, c.Pairwise (· < ·))
    (h : (combine s gs).1 ≠ .ok) : (combine s gs).2 = s := by
  have hcl : ({ s with clusters := s.clusters } : State α) = s := rfl
  unfold combine at h ⊢
  split
  · rfl
  rename_i hrect
  split
  · rfl
  rename_i hnd
  rw [not_not] at hnd
  rw [if_neg hrect, if_neg (not_not.2 hnd)] at h
  match gs, hlen with
  | [], _ => simp [combineLoop] at h ⊢
  | [[]], _ => simp [combineLoop]
  | [first :: t], _ =>
    cases hloop : combineLoop s.clusters [first :: t] with
    | mk o cs1 =>
    rw [hloop] at h
    have hraise : o ≠ .ok → cs1 = s.clusters := by
      intro ho
      rw [combineLoop] at hloop
      try simp only at hloop
      split at hloop
      · split at hloop
        · simp only [Prod.mk.injEq] at hloop; exact hloop.2.symm
        · simp only [combineLoop, Prod.mk.injEq] at hloop; exact absurd hloop.1.symm ho
      · simp only [Prod.mk.injEq] at hloop; exact hloop.2.symm
    cases o <;> simp only at h ⊢
    case ok =>
      exfalso
      obtain ⟨hg, hl, -, -⟩ := combineLoop_ok hinc hnd hloop
      have hgg := hg (first :: t) (by simp)
      apply h
      rw [if_neg]
      simp only [List.map_cons, List.tail_cons, List.map_nil, List.flatten_cons, List.flatten_nil,
        List.append_nil, List.any_eq_true, not_exists, not_and]
      intro i hi
      have := hgg.bound i (by simp [hi])
      simp; omega
    all_goals rw [hraise (by simp)]

end Verif.Cluster
