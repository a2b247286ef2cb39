import Verif.DataSet.Model

/-!
# C47, C48: reading and writing data sets
-/

namespace Verif.DataSet

open Verif.Py

set_option linter.unusedSectionVars false

variable {K W : Type} [Field K] [LinearOrder K] [IsStrictOrderedRing K]

/-! ### Specification -/

/-- A usable uncertainty: the word is there, is not an infinity or NaN word, and is a positive number. -/
def Usable (parse : W → Option K) (infnan : W → Bool) (w : Option W) : Prop :=
  ∃ t v, w = some t ∧ infnan t = false ∧ parse t = some v ∧ 0 < v

/-- A line that can be read: at least two words that are numbers. -/
def Readable (parse : W → Option K) (v : List W) : Prop :=
  ∃ a b r g, v[0]? = some a ∧ v[1]? = some b ∧ parse a = some r ∧ parse b = some g

/-- A column of words, as numbers. -/
def columnOf (parse : W → Option K) (k : ℕ) (lines : List (List W)) : List K :=
  lines.filterMap (fun v => v[k]?.bind parse)

/-! ### Proofs -/

/-- The value of a flag and a column after some lines: the flag says that all the words were usable, and then the
column is the list of numbers. -/
structure ColInv (parse : W → Option K) (infnan : W → Bool) (k : ℕ) (done : List (List W)) (has : Bool) (acc : List K) :
    Prop where
  flag : has = true ↔ ∀ v ∈ done, Usable parse infnan v[k]?
  vals : has = true → acc = columnOf parse k done

theorem column_step {parse : W → Option K} {infnan : W → Bool} {k : ℕ} {done : List (List W)} {has : Bool} {acc : List K}
    (inv : ColInv parse infnan k done has acc) (v : List W) {h : Bool} {l : List K}
    (hc : column parse infnan has acc v[k]? = .ok (h, l)) : ColInv parse infnan k (done ++ [v]) h l := by
  have split : (∀ u ∈ done ++ [v], Usable parse infnan u[k]?) ↔
      (∀ u ∈ done, Usable parse infnan u[k]?) ∧ Usable parse infnan v[k]? := by
    constructor
    · intro h; exact ⟨fun u hu => h u (by simp [hu]), h v (by simp)⟩
    · rintro ⟨h1, h2⟩ u hu
      rcases List.mem_append.1 hu with hu | hu
      · exact h1 u hu
      · simp at hu; subst hu; exact h2
  cases hw : v[k]? with
  | none =>
    rw [hw] at hc
    simp only [column] at hc
    cases hc
    refine ⟨?_, by simp⟩
    rw [split, hw]
    simp [Usable]
  | some t =>
    rw [hw] at hc
    simp only [column] at hc
    by_cases hb : (has && !infnan t) = true
    · rw [if_pos hb] at hc
      simp only [Bool.and_eq_true, Bool.not_eq_true'] at hb
      cases hp : parse t with
      | none => rw [hp] at hc; simp at hc
      | some x =>
        rw [hp] at hc
        cases hc
        constructor
        · rw [split, ← inv.flag, hw, decide_eq_true_eq]
          constructor
          · intro hx; exact ⟨hb.1, t, x, rfl, hb.2, hp, hx⟩
          · rintro ⟨-, t', x', ht, -, hp', hx'⟩
            cases ht; rw [hp] at hp'; cases hp'; exact hx'
        · intro _
          rw [columnOf, List.filterMap_append, ← columnOf, inv.vals hb.1]
          simp [hw, hp]
    · rw [if_neg hb] at hc
      cases hc
      refine ⟨?_, by simp⟩
      rw [split, ← inv.flag, hw]
      constructor
      · intro h; exact absurd h (by simp)
      · rintro ⟨h1, t', x', ht, h2, -⟩
        cases ht
        simp [h1, h2] at hb

/-- The state of the loop. -/
structure RdInv (parse : W → Option K) (infnan : W → Bool) (done : List (List W)) (s : Rd K) : Prop where
  robs : s.robs = columnOf parse 0 done
  gobs : s.gobs = columnOf parse 1 done
  rlen : s.robs.length = done.length
  glen : s.gobs.length = done.length
  dr : ColInv parse infnan 2 done s.hasDr s.drobs
  dg : ColInv parse infnan 3 done s.hasDg s.dgobs

theorem readLine_ok {parse : W → Option K} {infnan : W → Bool} {done : List (List W)} {s s' : Rd K}
    (inv : RdInv parse infnan done s) (v : List W) (h : readLine parse infnan s v = (s', none)) :
    RdInv parse infnan (done ++ [v]) s' ∧ Readable parse v := by
  cases v with
  | nil => simp [readLine] at h
  | cons w0 v1 =>
    simp only [readLine] at h
    cases h0 : parse w0 with
    | none => rw [h0] at h; simp at h
    | some r =>
      rw [h0] at h
      cases v1 with
      | nil => simp at h
      | cons w1 v2 =>
        simp only at h
        cases h1 : parse w1 with
        | none => rw [h1] at h; simp at h
        | some g =>
          rw [h1] at h
          simp only at h
          have e2 : v2[0]? = (w0 :: w1 :: v2)[2]? := rfl
          have e3 : v2[1]? = (w0 :: w1 :: v2)[3]? := rfl
          rw [e2, e3] at h
          cases hc : column parse infnan s.hasDr s.drobs (w0 :: w1 :: v2)[2]? with
          | error e => rw [hc] at h; simp at h
          | ok p =>
            obtain ⟨hd, ld⟩ := p
            rw [hc] at h
            simp only at h
            cases hc' : column parse infnan s.hasDg s.dgobs (w0 :: w1 :: v2)[3]? with
            | error e => rw [hc'] at h; simp at h
            | ok p =>
              obtain ⟨hg, lg⟩ := p
              rw [hc'] at h
              cases h
              refine ⟨⟨?_, ?_, ?_, ?_, column_step inv.dr _ hc, column_step inv.dg _ hc'⟩, w0, w1, r, g, rfl, rfl, h0, h1⟩
              · simp only
                rw [columnOf, List.filterMap_append, ← columnOf, inv.robs]
                simp [h0]
              · simp only
                rw [columnOf, List.filterMap_append, ← columnOf, inv.gobs]
                simp [h1]
              · simp [inv.rlen]
              · simp [inv.glen]

theorem readLines_ok {parse : W → Option K} {infnan : W → Bool} (lines : List (List W)) {done : List (List W)} {s s' : Rd K}
    (inv : RdInv parse infnan done s) (h : readLines parse infnan s lines = (s', none)) :
    RdInv parse infnan (done ++ lines) s' ∧ ∀ v ∈ lines, Readable parse v := by
  induction lines generalizing done s with
  | nil =>
    simp only [readLines] at h
    cases h
    simpa using inv
  | cons v rest ih =>
    simp only [readLines] at h
    cases hv : readLine parse infnan s v with
    | mk s1 e =>
      cases e with
      | some e => rw [hv] at h; simp at h
      | none =>
        rw [hv] at h
        obtain ⟨i1, r1⟩ := readLine_ok inv v hv
        obtain ⟨i2, r2⟩ := ih i1 h
        refine ⟨by simpa using i2, ?_⟩
        intro u hu
        rcases List.mem_cons.1 hu with rfl | hu
        · exact r1
        · exact r2 u hu

theorem columnOf_length_of_usable {parse : W → Option K} {infnan : W → Bool} {k : ℕ} {lines : List (List W)}
    (h : ∀ v ∈ lines, Usable parse infnan v[k]?) : (columnOf parse k lines).length = lines.length := by
  induction lines with
  | nil => rfl
  | cons v rest ih =>
    obtain ⟨t, x, ht, -, hp, -⟩ := h v (by simp)
    rw [columnOf, List.filterMap_cons_some (b := x) (by simp [ht, hp]), ← columnOf]
    simp [ih (fun u hu => h u (by simp [hu]))]

/-- **C47.** A data set that is read without error from a text with the given data lines: there was at least one line and
each was readable; r and G are the numbers of the first two columns, one for each line; the uncertainties of r are the
numbers of the third column if every line has a usable one, else all of them are zero, and the same for those of G and
the fourth column; the four lists have one length; rmin and rmax are the first and last r. -/
theorem c47_read (parse : W → Option K) (infnan : W → Bool) (q0 : K) (lines : List (List W)) (d : DS K)
    (h : readData parse infnan (clear q0) lines = (d, none)) :
    lines ≠ [] ∧ (∀ v ∈ lines, Readable parse v) ∧
    d.robs = columnOf parse 0 lines ∧ d.gobs = columnOf parse 1 lines ∧
    d.robs.length = lines.length ∧ d.gobs.length = lines.length ∧
    d.drobs.length = lines.length ∧ d.dgobs.length = lines.length ∧
    ((∀ v ∈ lines, Usable parse infnan v[2]?) → d.drobs = columnOf parse 2 lines) ∧
    (¬ (∀ v ∈ lines, Usable parse infnan v[2]?) → ∀ x ∈ d.drobs, x = 0) ∧
    ((∀ v ∈ lines, Usable parse infnan v[3]?) → d.dgobs = columnOf parse 3 lines) ∧
    (¬ (∀ v ∈ lines, Usable parse infnan v[3]?) → ∀ x ∈ d.dgobs, x = 0) ∧
    d.rmin = d.robs.head? ∧ d.rmax = d.robs.getLast? ∧ d.rmin ≠ none := by
  have hne : lines ≠ [] := by
    rintro rfl
    simp [readData, readLines, readLine] at h
  have hemp : lines.isEmpty = false := by cases lines with | nil => exact absurd rfl hne | cons _ _ => rfl
  simp only [readData, hemp, Bool.false_eq_true, if_false] at h
  cases hr : readLines parse infnan ⟨(clear q0 : DS K).robs, (clear q0 : DS K).gobs, (clear q0 : DS K).drobs,
      (clear q0 : DS K).dgobs, true, true⟩ lines with
  | mk s e =>
    rw [hr] at h
    cases e with
    | some e => simp at h
    | none =>
      have inv0 : RdInv parse infnan [] (⟨(clear q0 : DS K).robs, (clear q0 : DS K).gobs, (clear q0 : DS K).drobs,
          (clear q0 : DS K).dgobs, true, true⟩ : Rd K) :=
        ⟨rfl, rfl, rfl, rfl, ⟨by simp, fun _ => rfl⟩, ⟨by simp, fun _ => rfl⟩⟩
      obtain ⟨inv, hread⟩ := readLines_ok lines inv0 hr
      rw [List.nil_append] at inv
      simp only [Prod.mk.injEq, and_true] at h
      subst h
      refine ⟨hne, hread, inv.robs, inv.gobs, inv.rlen, inv.glen, ?_, ?_, ?_, ?_, ?_, ?_, rfl, rfl, ?_⟩
      · simp only
        by_cases hd : s.hasDr = true
        · rw [if_pos hd, inv.dr.vals hd, columnOf_length_of_usable (inv.dr.flag.1 hd)]
        · rw [if_neg hd, List.length_replicate, inv.rlen]
      · simp only
        by_cases hd : s.hasDg = true
        · rw [if_pos hd, inv.dg.vals hd, columnOf_length_of_usable (inv.dg.flag.1 hd)]
        · rw [if_neg hd, List.length_replicate, inv.rlen]
      · intro hu
        have hd := inv.dr.flag.2 hu
        simp only [if_pos hd]
        exact inv.dr.vals hd
      · intro hu x hx
        have hd : ¬ s.hasDr = true := fun e => hu (inv.dr.flag.1 e)
        simp only [if_neg hd] at hx
        exact (List.mem_replicate.1 hx).2
      · intro hu
        have hd := inv.dg.flag.2 hu
        simp only [if_pos hd]
        exact inv.dg.vals hd
      · intro hu x hx
        have hd : ¬ s.hasDg = true := fun e => hu (inv.dg.flag.1 e)
        simp only [if_neg hd] at hx
        exact (List.mem_replicate.1 hx).2
      · simp only
        intro e
        have := inv.rlen
        rw [List.head?_eq_none_iff] at e
        rw [e] at this
        exact hne (List.length_eq_zero_iff.1 this.symm)

/-- Uncertainties as they are after reading: all positive or all zero. -/
def AllOrNone (l : List K) : Prop := (∀ x ∈ l, 0 < x) ∨ (∀ x ∈ l, x = 0)

/-- **C47.** Uncertainties that were read are all positive or all zero. -/
theorem c47_all_or_none (parse : W → Option K) (infnan : W → Bool) (q0 : K) (lines : List (List W)) (d : DS K)
    (h : readData parse infnan (clear q0) lines = (d, none)) : AllOrNone d.drobs ∧ AllOrNone d.dgobs := by
  obtain ⟨-, -, -, -, -, -, -, -, h2, h2', h3, h3', -⟩ := c47_read parse infnan q0 lines d h
  have pos : ∀ k, (∀ v ∈ lines, Usable parse infnan v[k]?) → ∀ x ∈ columnOf parse k lines, 0 < x := by
    intro k hu x hx
    obtain ⟨v, hv, hvx⟩ := List.mem_filterMap.1 hx
    obtain ⟨t, y, ht, -, hp, hy⟩ := hu v hv
    rw [ht] at hvx
    simp only [Option.bind_some, hp] at hvx
    cases hvx; exact hy
  constructor
  · by_cases hu : ∀ v ∈ lines, Usable parse infnan v[2]?
    · left; rw [h2 hu]; exact pos 2 hu
    · right; exact h2' hu
  · by_cases hu : ∀ v ∈ lines, Usable parse infnan v[3]?
    · left; rw [h3 hu]; exact pos 3 hu
    · right; exact h3' hu

theorem readLine_readable {parse : W → Option K} {infnan : W → Bool} (s : Rd K) (a b c d : W) {r g x y : K}
    (ha : parse a = some r) (hb : parse b = some g) (hc : parse c = some x) (hd : parse d = some y) :
    ∃ s', readLine parse infnan s [a, b, c, d] = (s', none) := by
  have col : ∀ (h : Bool) (l : List K) w z, parse w = some z → ∃ p, column parse infnan h l (some w) = .ok p := by
    intro h l w z hw
    by_cases hb : (h && !infnan w) = true
    · exact ⟨(decide (0 < z), l ++ [z]), by simp only [column, if_pos hb, hw]⟩
    · exact ⟨(false, l), by simp only [column, if_neg hb]⟩
  obtain ⟨⟨h1, l1⟩, e1⟩ := col s.hasDr s.drobs c x hc
  obtain ⟨⟨h2, l2⟩, e2⟩ := col s.hasDg s.dgobs d y hd
  simp only [readLine, ha, hb, List.getElem?_cons_zero, e1, List.getElem?_cons_succ, e2]
  exact ⟨_, rfl⟩

theorem readLines_readable {parse : W → Option K} {infnan : W → Bool} (lines : List (List W)) (s : Rd K)
    (h : ∀ v ∈ lines, ∃ a b c d, v = [a, b, c, d] ∧ (∃ r, parse a = some r) ∧ (∃ r, parse b = some r) ∧
      (∃ r, parse c = some r) ∧ ∃ r, parse d = some r) :
    ∃ s', readLines parse infnan s lines = (s', none) := by
  induction lines generalizing s with
  | nil => exact ⟨s, rfl⟩
  | cons v rest ih =>
    obtain ⟨a, b, c, d, rfl, ⟨r, hr⟩, ⟨g, hg⟩, ⟨x, hx⟩, ⟨y, hy⟩⟩ := h v (by simp)
    obtain ⟨s1, h1⟩ := readLine_readable (infnan := infnan) s a b c d hr hg hx hy
    obtain ⟨s2, h2⟩ := ih s1 (fun u hu => h u (by simp [hu]))
    exact ⟨s2, by simp only [readLines, h1, h2]⟩

theorem columnOf_dataLines (parse : W → Option K) (fmt : K → W) (round : K → K) (hp : ∀ v, parse (fmt v) = some (round v)) :
    ∀ (r g dr dg : List K), r.length = g.length → r.length = dr.length → r.length = dg.length →
      let lines := List.zipWith (fun (p : K × K) (q : K × K) => [fmt p.1, fmt p.2, fmt q.1, fmt q.2]) (r.zip g) (dr.zip dg)
      columnOf parse 0 lines = r.map round ∧ columnOf parse 1 lines = g.map round ∧
      columnOf parse 2 lines = dr.map round ∧ columnOf parse 3 lines = dg.map round ∧ lines.length = r.length := by
  intro r
  induction r with
  | nil =>
    intro g dr dg h1 h2 h3
    have e1 : g = [] := List.length_eq_zero_iff.1 h1.symm
    have e2 : dr = [] := List.length_eq_zero_iff.1 h2.symm
    have e3 : dg = [] := List.length_eq_zero_iff.1 h3.symm
    subst e1 e2 e3
    simp [columnOf]
  | cons a r ih =>
    intro g dr dg h1 h2 h3
    cases g with
    | nil => simp at h1
    | cons b g =>
      cases dr with
      | nil => simp at h2
      | cons c dr =>
        cases dg with
        | nil => simp at h3
        | cons e dg =>
          obtain ⟨i0, i1, i2, i3, i4⟩ := ih g dr dg (by simpa using h1) (by simpa using h2) (by simpa using h3)
          simp only [List.zip_cons_cons, List.zipWith_cons_cons, columnOf, List.filterMap_cons,
            List.getElem?_cons_zero, List.getElem?_cons_succ, Option.bind_some, hp, List.map_cons, List.length_cons] at *
          exact ⟨by rw [i0], by rw [i1], by rw [i2], by rw [i3], by rw [i4]⟩

/-- **C47.** Writing and reading back.  Let `fmt` be the format `%g` and `round v` the number that the written word is
read as; rounding keeps positive numbers positive, zero zero, and a written number is no infinity or NaN word.  A
non-empty data set with four lists of one length, whose uncertainties are all positive or all zero, is read back with
the rounded numbers in all four lists. -/
theorem c47_roundtrip (parse : W → Option K) (infnan : W → Bool) (fmt : K → W) (round : K → K) (q0 : K)
    (hp : ∀ v, parse (fmt v) = some (round v)) (hpos : ∀ v, 0 < v → 0 < round v) (hzero : round 0 = 0)
    (hin : ∀ v, infnan (fmt v) = false) (d : DS K)
    (h1 : d.robs.length = d.gobs.length) (h2 : d.robs.length = d.drobs.length) (h3 : d.robs.length = d.dgobs.length)
    (hne : d.robs ≠ []) (hdr : AllOrNone d.drobs) (hdg : AllOrNone d.dgobs) :
    ∃ d', readData parse infnan (clear q0) (dataLines fmt d) = (d', none) ∧
      d'.robs = d.robs.map round ∧ d'.gobs = d.gobs.map round ∧ d'.drobs = d.drobs.map round ∧
      d'.dgobs = d.dgobs.map round ∧ d'.rmin = d.robs.head?.map round ∧ d'.rmax = d.robs.getLast?.map round := by
  obtain ⟨c0, c1, c2, c3, hl⟩ := columnOf_dataLines parse fmt round hp d.robs d.gobs d.drobs d.dgobs h1 h2 h3
  change columnOf parse 0 (dataLines fmt d) = _ at c0
  change columnOf parse 1 (dataLines fmt d) = _ at c1
  change columnOf parse 2 (dataLines fmt d) = _ at c2
  change columnOf parse 3 (dataLines fmt d) = _ at c3
  change (dataLines fmt d).length = _ at hl
  have shape : ∀ v ∈ dataLines fmt d, ∃ p q : K × K, p ∈ d.robs.zip d.gobs ∧ q ∈ d.drobs.zip d.dgobs ∧
      v = [fmt p.1, fmt p.2, fmt q.1, fmt q.2] := by
    intro v hv
    obtain ⟨i, hi, rfl⟩ := List.mem_iff_getElem.1 hv
    unfold dataLines at hi ⊢
    rw [List.getElem_zipWith]
    exact ⟨_, _, List.getElem_mem _, List.getElem_mem _, rfl⟩
  have hlne : dataLines fmt d ≠ [] := by
    intro e; rw [e] at hl; exact hne (List.length_eq_zero_iff.1 hl.symm)
  have hemp : (dataLines fmt d).isEmpty = false := by
    cases hdl : dataLines fmt d with
    | nil => exact absurd hdl hlne
    | cons _ _ => rfl
  obtain ⟨s, hs⟩ := readLines_readable (parse := parse) (infnan := infnan) (dataLines fmt d)
    ⟨(clear q0 : DS K).robs, (clear q0 : DS K).gobs, (clear q0 : DS K).drobs, (clear q0 : DS K).dgobs, true, true⟩ (by
      intro v hv
      obtain ⟨p, q, -, -, rfl⟩ := shape v hv
      exact ⟨_, _, _, _, rfl, ⟨_, hp _⟩, ⟨_, hp _⟩, ⟨_, hp _⟩, ⟨_, hp _⟩⟩)
  have hok : ∃ d', readData parse infnan (clear q0) (dataLines fmt d) = (d', none) := by
    simp only [readData, hemp, Bool.false_eq_true, if_false, hs]
    exact ⟨_, rfl⟩
  obtain ⟨d', hd'⟩ := hok
  obtain ⟨-, -, er, eg, lr, lg, ldr, ldg, hu2, hn2, hu3, hn3, emin, emax, -⟩ := c47_read parse infnan q0 _ d' hd'
  have unc : ∀ (k : ℕ) (l l' : List K), columnOf parse k (dataLines fmt d) = l.map round → AllOrNone l →
      l'.length = (dataLines fmt d).length → l.length = (dataLines fmt d).length →
      (∀ v ∈ dataLines fmt d, ∃ x ∈ l, v[k]? = some (fmt x)) →
      ((∀ v ∈ dataLines fmt d, Usable parse infnan v[k]?) → l' = columnOf parse k (dataLines fmt d)) →
      (¬ (∀ v ∈ dataLines fmt d, Usable parse infnan v[k]?) → ∀ x ∈ l', x = 0) → l' = l.map round := by
    intro k l l' hc hall hl' hll hmem hu hn
    rcases hall with hall | hall
    · rw [← hc]
      apply hu
      intro v hv
      obtain ⟨x, hx, e⟩ := hmem v hv
      exact ⟨fmt x, round x, e, hin x, hp x, hpos x (hall x hx)⟩
    · have hnu : ¬ (∀ v ∈ dataLines fmt d, Usable parse infnan v[k]?) := by
        intro hu'
        obtain ⟨v, hv⟩ := List.exists_mem_of_ne_nil _ hlne
        obtain ⟨x, hx, e⟩ := hmem v hv
        obtain ⟨t, y, ht, -, hpt, hy⟩ := hu' v hv
        rw [e] at ht
        cases ht
        rw [hp, hall x hx, hzero] at hpt
        cases hpt
        exact lt_irrefl _ hy
      have hz := hn hnu
      apply List.ext_getElem (by rw [List.length_map]; omega)
      intro i hi hi'
      rw [hz _ (List.getElem_mem hi), List.getElem_map, hall _ (List.getElem_mem _), hzero]
  refine ⟨d', hd', by rw [er, c0], by rw [eg, c1], ?_, ?_, ?_, ?_⟩
  · apply unc 2 d.drobs d'.drobs c2 hdr ldr (by omega) _ hu2 hn2
    intro v hv
    obtain ⟨p, q, -, hq, rfl⟩ := shape v hv
    exact ⟨q.1, (List.of_mem_zip (a := q.1) (b := q.2) (by simpa using hq)).1, rfl⟩
  · apply unc 3 d.dgobs d'.dgobs c3 hdg ldg (by omega) _ hu3 hn3
    intro v hv
    obtain ⟨p, q, -, hq, rfl⟩ := shape v hv
    exact ⟨q.2, (List.of_mem_zip (a := q.1) (b := q.2) (by simpa using hq)).2, rfl⟩
  · rw [emin, er, c0, List.head?_map]
  · rw [emax, er, c0, List.getLast?_map]

/-- **C47, finding.** Uncertainties of which some are zero are all lost: one line without a usable value sets the whole
column to zero. -/
theorem c47_mixed_lost : let d : DS ℚ := { (clear 0 : DS ℚ) with robs := [1, 2], gobs := [5, 6], drobs := [1, 0], dgobs := [1, 1] }
    (readData some (fun _ => false) (clear 0) (dataLines id d)).1.drobs = [0, 0] ∧
    (readData some (fun _ => false) (clear 0) (dataLines id d)).1.dgobs = [1, 1] := by
  decide +kernel

/-- **C47, finding.** A cleared data set can be written, but not read back. -/
theorem c47_empty_not_readable (parse : W → Option K) (infnan : W → Bool) (fmt : K → W) (q0 : K) :
    (readData parse infnan (clear q0) (dataLines fmt (clear q0))).2 = some .dataFormat := by
  simp [dataLines, clear, readData, readLines, readLine]

/-- **C47, finding.** A bad line is found out after the lines before it, and part of itself, have been stored: after the
error the object no longer has its old data, and r and G may differ in length. -/
theorem c47_error_leaves_part (parse : W → Option K) (infnan : W → Bool) (q0 : K) (a b : W) (r : K)
    (ha : parse a = some r) (hb : parse b = none) :
    (readData parse infnan (clear q0) [[a, b]]).2 = some .dataFormat ∧
    (readData parse infnan (clear q0) [[a, b]]).1.robs = [r] ∧ (readData parse infnan (clear q0) [[a, b]]).1.gobs = [] := by
  simp [readData, readLines, readLine, ha, hb, clear]

/-- **C47.** A copy has all the attributes but `spdiameter`, which is reset. -/
theorem c47_copy (q0 : K) (d : DS K) : copy q0 d = { d with spdiameter := none } := rfl

/-! ### C48 -/

/-- **C48.** `setvar` of one of the three names, possibly surrounded by blanks, to something that is a number: `getvar` of the
same name gives that number, of the other names what it gave before, and nothing else of the object changes.
Any other name, or something that is no number, raises an error and changes nothing. -/
theorem c48_setvar (strip : String → String) (d : DS K) (var : String) (value : Option K) :
    let r := setvar strip d var value
    (∀ v, value = some v → strip var ∈ ["qdamp", "qbroad", "dscale"] →
      r.2 = none ∧ (∀ var', strip var' = strip var → getvar strip r.1 var' = .ok v) ∧
      (∀ var', strip var' ≠ strip var → getvar strip r.1 var' = getvar strip d var') ∧
      { r.1 with qdamp := d.qdamp, qbroad := d.qbroad, dscale := d.dscale } = d) ∧
    (strip var ∉ ["qdamp", "qbroad", "dscale"] ∨ value = none → r.1 = d ∧ r.2 ≠ none) ∧
    (getvar strip d var = .error .key ↔ strip var ∉ ["qdamp", "qbroad", "dscale"]) := by
  intro r
  refine ⟨?_, ?_, ?_⟩
  · rintro v rfl hm
    simp only [List.mem_cons, List.not_mem_nil, or_false] at hm
    rcases hm with hm | hm | hm
    · have : r = ({ d with qdamp := v }, none) := by simp [r, setvar, hm]
      rw [this]
      refine ⟨rfl, fun var' h => by simp [getvar, h, hm], fun var' h => ?_, rfl⟩
      rw [hm] at h
      simp [getvar, h]
    · have : r = ({ d with qbroad := v }, none) := by simp [r, setvar, hm]
      rw [this]
      refine ⟨rfl, fun var' h => by simp [getvar, h, hm], fun var' h => ?_, rfl⟩
      rw [hm] at h
      simp [getvar, h]
    · have : r = ({ d with dscale := v }, none) := by simp [r, setvar, hm]
      rw [this]
      refine ⟨rfl, fun var' h => by simp [getvar, h, hm], fun var' h => ?_, rfl⟩
      rw [hm] at h
      simp [getvar, h]
  · intro h
    cases hv : value with
    | none => simp [r, setvar, hv]
    | some v =>
      rcases h with h | h
      · simp only [List.mem_cons, List.not_mem_nil, or_false, not_or] at h
        simp [r, setvar, hv, h]
      · rw [hv] at h; simp at h
  · simp only [List.mem_cons, List.not_mem_nil, or_false, not_or, getvar]
    by_cases h1 : strip var = "qdamp"
    · simp [h1]
    · by_cases h2 : strip var = "qbroad"
      · simp [h2]
      · by_cases h3 : strip var = "dscale"
        · simp [h3]
        · simp [h1, h2, h3]

/-! ### Instances -/

/-- Instance: two lines, the second without uncertainty of G. -/
example : (readData (some : ℚ → Option ℚ) (fun _ => false) (clear 0) [[1, 5, 1, 2], [2, 6, 1]]).2 = none ∧
    (readData (some : ℚ → Option ℚ) (fun _ => false) (clear 0) [[1, 5, 1, 2], [2, 6, 1]]).1.drobs = [1, 1] ∧
    (readData (some : ℚ → Option ℚ) (fun _ => false) (clear 0) [[1, 5, 1, 2], [2, 6, 1]]).1.dgobs = [0, 0] := by
  decide +kernel

/-- Instance: the hypotheses of the round trip hold of some formatting and of a data set. -/
example : ∃ (parse : ℚ → Option ℚ) (infnan : ℚ → Bool) (fmt round : ℚ → ℚ), (∀ v, parse (fmt v) = some (round v)) ∧
    (∀ v, 0 < v → 0 < round v) ∧ round 0 = 0 ∧ (∀ v, infnan (fmt v) = false) ∧
    AllOrNone ([1, 2] : List ℚ) ∧ AllOrNone ([0, 0] : List ℚ) := by
  refine ⟨some, fun _ => false, id, id, fun _ => rfl, fun _ h => h, rfl, fun _ => rfl, Or.inl ?_, Or.inr ?_⟩
  · intro x hx; simp at hx; rcases hx with rfl | rfl <;> norm_num
  · intro x hx; simpa using hx

/-- Instance: setting and getting, with blanks. -/
example : getvar (fun s => if s = " qdamp " then "qdamp" else s)
    (setvar (fun s => if s = " qdamp " then "qdamp" else s) (clear 0) " qdamp " (some (3 : ℚ))).1 "qdamp" = .ok 3 := by
  decide +kernel

end Verif.DataSet
