import Verif.Text.Lemmas
import Mathlib.Algebra.Ring.Rat

/-!
# C76: peaks and baselines written as text and read again
-/

namespace Verif.Text

open Verif.Py Verif.Parts

set_option linter.unusedSectionVars false

variable {K V : Type}

/-- The texts written for a part whose owner is function number `i` of the list evaluate to what they were made from,
and no number is written with a line break.  (For finite numbers this is Python's `eval(repr(x)) == x`.) -/
structure Readable (P : Python K V) (p : Part K) (i : ℕ) : Prop where
  index : ∃ v, P.eval (reprNat i) = some v ∧ P.index v = some (i : ℤ)
  pars : ∃ v, P.eval (listText (p.pars.map (P.reprNum p.isInt))) = some v ∧ P.pars v = .ok (p.pars, p.isInt)
  free : ∃ v, P.eval (listText (p.free.map P.reprFree)) = some v ∧ P.free v = .ok (some p.free)
  bool : ∀ b, ∃ v, P.eval (reprBool b) = some v ∧ P.truth v = b
  numLine : ∀ x ∈ p.pars, OneLine (P.reprNum p.isInt x)
  freeLine : ∀ b, OneLine (P.reprFree b)

theorem partLines_oneLine (P : Python K V) (p : Part K) (i : ℕ) (h1 : ∀ x ∈ p.pars, OneLine (P.reprNum p.isInt x))
    (h2 : ∀ b, OneLine (P.reprFree b)) : ∀ l ∈ partLines P p i, OneLine l := by
  have hk : ∀ s : String, s ∈ ["owner=", "pars=", "free=", "removable=", "static_owner="] → OneLine s.toList := by
    intro s hs c hc
    simp only [List.mem_cons, List.not_mem_nil, or_false] at hs
    rcases hs with rfl | rfl | rfl | rfl | rfl <;> (revert c; decide)
  intro l hl
  unfold partLines at hl
  simp only [List.mem_cons, List.not_mem_nil, or_false] at hl
  rcases hl with rfl | rfl | rfl | rfl | rfl <;> rw [oneLine_append]
  · exact ⟨hk _ (by simp), oneLine_reprNat i⟩
  · refine ⟨hk _ (by simp), oneLine_listText _ ?_⟩
    intro t ht
    obtain ⟨x, hx, rfl⟩ := List.mem_map.1 ht
    exact h1 x hx
  · refine ⟨hk _ (by simp), oneLine_listText _ ?_⟩
    intro t ht
    obtain ⟨x, hx, rfl⟩ := List.mem_map.1 ht
    exact h2 x
  · exact ⟨hk _ (by simp), oneLine_reprBool _⟩
  · exact ⟨hk _ (by simp), oneLine_reprBool _⟩

theorem reprBool_last (b : Bool) : ∃ t, reprBool b = t ++ ['e'] := by
  cases b
  · exact ⟨"Fals".toList, rfl⟩
  · exact ⟨"Tru".toList, rfl⟩

/-- The text of a part, with white space around it, has exactly its five lines. -/
theorem lines_of_text (P : Python K V) (p : Part K) (i : ℕ) (h1 : ∀ x ∈ p.pars, OneLine (P.reprNum p.isInt x))
    (h2 : ∀ b, OneLine (P.reprFree b)) (w1 w2 : List Char) (hw1 : Blank w1) (hw2 : Blank w2) :
    splitlines (strip (w1 ++ (join ['\n'] (partLines P p i) ++ ['\n']) ++ w2)) = partLines P p i := by
  obtain ⟨t, ht⟩ := reprBool_last p.staticOwner
  obtain ⟨u, hu⟩ : ∃ u, join ['\n'] (partLines P p i) = 'o' :: u ++ ['e'] := by
    refine ⟨"wner=".toList ++ reprNat i ++ '\n' :: ("pars=".toList ++ listText (p.pars.map (P.reprNum p.isInt)) ++
      '\n' :: ("free=".toList ++ listText (p.free.map P.reprFree) ++ '\n' :: ("removable=".toList ++ reprBool p.removable ++
      '\n' :: ("static_owner=".toList ++ t)))), ?_⟩
    have : "owner=".toList = 'o' :: "wner=".toList := rfl
    unfold partLines
    simp only [join, ht, this]
    simp only [List.append_assoc, List.cons_append, List.nil_append]
  have hstrip : strip (w1 ++ (join ['\n'] (partLines P p i) ++ ['\n']) ++ w2) = join ['\n'] (partLines P p i) := by
    rw [hu]
    have := strip_core w1 ('\n' :: w2) hw1 (by
      intro c hc
      rcases List.mem_cons.1 hc with rfl | hc
      · decide
      · exact hw2 c hc) 'o' 'e' u (by decide) (by decide)
    have e : w1 ++ ('o' :: u ++ ['e'] ++ ['\n']) ++ w2 = w1 ++ ('o' :: u ++ ['e']) ++ '\n' :: w2 := by simp
    rw [e, this]
  rw [hstrip]
  have hol := partLines_oneLine P p i h1 h2
  have e : partLines P p i = (partLines P p i).dropLast ++ ["static_owner=".toList ++ reprBool p.staticOwner] := rfl
  rw [e] at hol ⊢
  exact splitlines_join _ (fun l hl => hol l (by simp [hl])) _ (hol _ (by simp)) (by simp)

theorem ownerIndex_some {owners : List (Owner K)} {id i : ℕ} (h : ownerIndex owners id = some i) :
    ∃ o, owners[i]? = some o ∧ o.id = id := by
  unfold ownerIndex at h
  rw [List.findIdx?_eq_some_iff_getElem] at h
  obtain ⟨hi, h1, -⟩ := h
  exact ⟨owners[i], List.getElem?_eq_getElem hi, by simpa using h1⟩

/-- **C76.** A part is written exactly if its owner is in the list given; otherwise ValueError. -/
theorem c76_writable (P : Python K V) (p : Part K) (owners : List (Owner K)) :
    ((∃ o ∈ owners, o.id = p.owner.id) → ∃ t, writestr P p owners = .ok t) ∧
    ((∀ o ∈ owners, o.id ≠ p.owner.id) → writestr P p owners = .error .value) := by
  unfold writestr
  cases h : ownerIndex owners p.owner.id with
  | none =>
    have hn : ∀ o ∈ owners, o.id ≠ p.owner.id := by
      intro o ho
      unfold ownerIndex at h
      rw [List.findIdx?_eq_none_iff] at h
      simpa using h o ho
    refine ⟨?_, fun _ => rfl⟩
    rintro ⟨o, ho, e⟩
    exact absurd e (hn o ho)
  | some i =>
    obtain ⟨o, h1, h2⟩ := ownerIndex_some h
    refine ⟨fun _ => ⟨_, rfl⟩, ?_⟩
    intro hn
    exact absurd h2 (hn o (List.mem_of_getElem? h1))

/-- The dictionary read from the five lines. -/
theorem readDict_part (P : Python K V) (p : Part K) (i : ℕ) (vi vp vf vr vs : V)
    (h1 : P.eval (reprNat i) = some vi) (h2 : P.eval (listText (p.pars.map (P.reprNum p.isInt))) = some vp)
    (h3 : P.eval (listText (p.free.map P.reprFree)) = some vf) (h4 : P.eval (reprBool p.removable) = some vr)
    (h5 : P.eval (reprBool p.staticOwner) = some vs) :
    readDict P (partLines P p i) [] = .ok [("owner".toList, vi), ("pars".toList, vp), ("free".toList, vf),
      ("removable".toList, vr), ("static_owner".toList, vs)] := by
  have k : ∀ (s : String) (t : List Char), '=' ∉ s.toList → splitEq ((s ++ "=").toList ++ t) = some (s.toList, t) := by
    intro s t hs
    rw [String.toList_append, List.append_assoc]
    exact splitEq_spec _ _ hs
  unfold partLines
  have k1 := k "owner" (reprNat i) (by decide)
  have k2 := k "pars" (listText (p.pars.map (P.reprNum p.isInt))) (by decide)
  have k3 := k "free" (listText (p.free.map P.reprFree)) (by decide)
  have k4 := k "removable" (reprBool p.removable) (by decide)
  have k5 := k "static_owner" (reprBool p.staticOwner) (by decide)
  rw [show "owner" ++ "=" = "owner=" from rfl] at k1
  rw [show "pars" ++ "=" = "pars=" from rfl] at k2
  rw [show "free" ++ "=" = "free=" from rfl] at k3
  rw [show "removable" ++ "=" = "removable=" from rfl] at k4
  rw [show "static_owner" ++ "=" = "static_owner=" from rfl] at k5
  simp only [readDict, k1, k2, k3, k4, k5, h1, h2, h3, h4, h5]
  rfl

/-- **C76.** What `writestr` writes, `Peak.factory` and `Baseline.factory` read back as the same part: same owner,
parameters, free flags, removability and static owner, whatever white space surrounds the text, as long as the numbers of
the part are written so that they evaluate back to themselves. -/
theorem c76_roundtrip (P : Python K V) (p : Part K) (owners : List (Owner K)) (text : List Char) (removable : Bool)
    (hown : ∀ o ∈ owners, o.id = p.owner.id → o = p.owner)
    (hp : p.pars.length = p.owner.npars) (hf : p.free.length = p.owner.npars)
    (hr : ∀ i, ownerIndex owners p.owner.id = some i → Readable P p i)
    (hw : writestr P p owners = .ok text) (w1 w2 : List Char) (hw1 : Blank w1) (hw2 : Blank w2) :
    factory P removable (w1 ++ text ++ w2) owners = .ok p := by
  unfold writestr at hw
  cases hi : ownerIndex owners p.owner.id with
  | none => rw [hi] at hw; cases hw
  | some i =>
    rw [hi] at hw
    injection hw with hw
    obtain ⟨⟨vi, e1, g1⟩, ⟨vp, e2, g2⟩, ⟨vf, e3, g3⟩, hb, hn, hfl⟩ := hr i hi
    obtain ⟨vr, e4, g4⟩ := hb p.removable
    obtain ⟨vs, e5, g5⟩ := hb p.staticOwner
    obtain ⟨o, ho, hid⟩ := ownerIndex_some hi
    have heq : o = p.owner := hown o (List.mem_of_getElem? ho) hid
    subst heq
    have hlt : i < owners.length := (List.getElem?_eq_some_iff.1 ho).1
    unfold factory
    rw [← hw, lines_of_text P p i hn hfl w1 w2 hw1 hw2, readDict_part P p i vi vp vf vr vs e1 e2 e3 e4 e5]
    have hidx : pyIndex owners.length (i : ℤ) = .ok i := by
      unfold pyIndex
      rw [if_pos ⟨by omega, by exact_mod_cast hlt⟩, Int.toNat_natCast]
    have hle : ¬ ((owners.length : ℤ) < (i : ℤ)) := by push Not; exact_mod_cast hlt.le
    have hget : Dict.get [("owner".toList, vi), ("pars".toList, vp), ("free".toList, vf),
      ("removable".toList, vr), ("static_owner".toList, vs)] "owner".toList = some vi := rfl
    have hdel : Dict.del [("owner".toList, vi), ("pars".toList, vp), ("free".toList, vf),
      ("removable".toList, vr), ("static_owner".toList, vs)] "owner".toList = [("pars".toList, vp), ("free".toList, vf),
      ("removable".toList, vr), ("static_owner".toList, vs)] := rfl
    simp only [hget, g1, if_neg hle, hidx, ho, hdel]
    unfold construct
    rw [if_neg (by
      rw [not_not]
      intro e he
      simp only [List.mem_cons, List.not_mem_nil, or_false] at he
      rcases he with rfl | rfl | rfl | rfl <;> (simp only [keywords]; decide))]
    have q1 : Dict.get [("pars".toList, vp), ("free".toList, vf), ("removable".toList, vr), ("static_owner".toList, vs)]
      "pars".toList = some vp := rfl
    have q2 : Dict.get [("pars".toList, vp), ("free".toList, vf), ("removable".toList, vr), ("static_owner".toList, vs)]
      "free".toList = some vf := rfl
    have q3 : Dict.get [("pars".toList, vp), ("free".toList, vf), ("removable".toList, vr), ("static_owner".toList, vs)]
      "removable".toList = some vr := rfl
    have q4 : Dict.get [("pars".toList, vp), ("free".toList, vf), ("removable".toList, vr), ("static_owner".toList, vs)]
      "static_owner".toList = some vs := rfl
    simp only [q1, g2, freeOf, q2, g3, q3, q4, Option.map_some, Option.getD_some, g4, g5, Part.new]
    rw [if_neg (by rw [hp]; simp), if_neg (by rw [hf]; simp)]

/-- A line that is not `key=expression` with an expression that can be evaluated. -/
def BadLine (P : Python K V) (l : List Char) : Prop :=
  '=' ∉ l ∨ ∃ k t, l = k ++ '=' :: t ∧ '=' ∉ k ∧ P.eval t = none

theorem readDict_bad (P : Python K V) (ls : List (List Char)) (d : Dict V) :
    ((∃ l ∈ ls, BadLine P l) → readDict P ls d = .error .dataFormat) ∧
    ((∀ l ∈ ls, ¬ BadLine P l) → ∃ d', readDict P ls d = .ok d') := by
  induction ls generalizing d with
  | nil => exact ⟨(by rintro ⟨_, h, _⟩; cases h), fun _ => ⟨d, rfl⟩⟩
  | cons l ls ih =>
    rw [readDict]
    cases hs : splitEq l with
    | none =>
      have hb : BadLine P l := .inl ((splitEq_none l).1 hs)
      exact ⟨fun _ => rfl, fun h => absurd hb (h l (by simp))⟩
    | some kt =>
      obtain ⟨k, t⟩ := kt
      obtain ⟨hl, hk⟩ := splitEq_some hs
      simp only
      cases he : P.eval t with
      | none =>
        have hb : BadLine P l := .inr ⟨k, t, hl, hk, he⟩
        exact ⟨fun _ => rfl, fun h => absurd hb (h l (by simp))⟩
      | some v =>
        have hg : ¬ BadLine P l := by
          rintro (h | ⟨k', t', h1, h2, h3⟩)
          · exact h (by rw [hl]; simp)
          · have := splitEq_spec k' t' h2
            rw [← h1, hs] at this
            cases this
            rw [he] at h3
            cases h3
        simp only
        constructor
        · rintro ⟨l', hm, hb⟩
          rcases List.mem_cons.1 hm with rfl | hm
          · exact absurd hb hg
          · exact (ih _).1 ⟨l', hm, hb⟩
        · exact fun h => (ih _).2 (fun l' hl' => h l' (by simp [hl']))

/-- **C76.** A text is refused with SrMiseDataFormatError exactly if some line is not `key=expression` with an expression
that can be evaluated (given that making arrays of the values does not raise that exception). -/
theorem c76_malformed (P : Python K V) (removable : Bool) (text : List Char) (owners : List (Owner K))
    (h1 : ∀ v, P.pars v ≠ .error .dataFormat) (h2 : ∀ v, P.free v ≠ .error .dataFormat) :
    factory P removable text owners = .error .dataFormat ↔ ∃ l ∈ splitlines (strip text), BadLine P l := by
  constructor
  · intro h
    by_contra hc
    push Not at hc
    obtain ⟨d, hd⟩ := (readDict_bad P (splitlines (strip text)) []).2 (fun l hl hb => hc l hl hb)
    unfold factory at h
    rw [hd] at h
    simp only at h
    split at h
    · cases h
    · split at h
      · cases h
      · split at h
        · cases h
        · split at h
          · rename_i e he
            cases h
            unfold pyIndex at he
            split at he
            · cases he
            · split at he <;> cases he
          · split at h
            · cases h
            · unfold construct at h
              split at h
              · cases h
              · split at h
                · cases h
                · split at h
                  · rename_i e he
                    cases h
                    exact h1 _ he
                  · split at h
                    · rename_i e he
                      cases h
                      unfold freeOf at he
                      split at he
                      · cases he
                      · exact h2 _ he
                    · unfold Part.new at h
                      split at h
                      · cases h
                      · simp only at h
                        split at h <;> split at h <;> cases h
  · intro h
    unfold factory
    rw [(readDict_bad P _ []).1 h]

/-- **C76, finding.** A part with a parameter that does not evaluate back (`nan`, `inf`) is written without complaint,
but what was written is refused. -/
theorem c76_nan_unreadable (P : Python K V) (p : Part K) (owners : List (Owner K)) (text : List Char) (removable : Bool)
    (h1 : ∀ x ∈ p.pars, OneLine (P.reprNum p.isInt x)) (h2 : ∀ b, OneLine (P.reprFree b))
    (hnan : P.eval (listText (p.pars.map (P.reprNum p.isInt))) = none) (hw : writestr P p owners = .ok text) :
    factory P removable text owners = .error .dataFormat := by
  unfold writestr at hw
  cases hi : ownerIndex owners p.owner.id with
  | none => rw [hi] at hw; cases hw
  | some i =>
    rw [hi] at hw
    injection hw with hw
    have hl := lines_of_text P p i h1 h2 [] [] (fun _ h => nomatch h) (fun _ h => nomatch h)
    rw [List.nil_append, List.append_nil, hw] at hl
    unfold factory
    rw [hl, (readDict_bad P _ []).1 ?_]
    refine ⟨_, List.mem_cons_of_mem _ List.mem_cons_self, .inr ⟨"pars".toList, _, ?_, by decide, hnan⟩⟩
    rfl

/-- **C76, finding.** The check of the owner's index is off by one: for a text with the lines of a part, index `n` into a
list of `n` functions is IndexError, only larger ones are the documented ValueError, and negative ones count from the end. -/
theorem c76_owner_index (P : Python K V) (removable : Bool) (text : List Char) (owners : List (Owner K)) (d : Dict V)
    (v : V) (i : ℤ) (hd : readDict P (splitlines (strip text)) [] = .ok d) (hv : d.get "owner".toList = some v)
    (hi : P.index v = some i) :
    ((owners.length : ℤ) < i → factory P removable text owners = .error .value) ∧
    ((owners.length : ℤ) = i → factory P removable text owners = .error .index) ∧
    (i < -(owners.length : ℤ) → factory P removable text owners = .error .index) ∧
    (∀ (j : ℕ) o, owners[j]? = some o → i = (j : ℤ) ∨ i = (j : ℤ) - owners.length →
      factory P removable text owners = construct P removable o (d.del "owner".toList)) := by
  unfold factory
  rw [hd]
  simp only [hv, hi]
  refine ⟨?_, ?_, ?_, ?_⟩
  · intro h
    rw [if_pos h]
  · intro h
    rw [if_neg (by omega)]
    unfold pyIndex
    rw [if_neg (by omega), if_neg (by omega)]
  · intro h
    rw [if_neg (by omega)]
    unfold pyIndex
    rw [if_neg (by omega), if_neg (by omega)]
  · intro j o ho h
    have hj : j < owners.length := (List.getElem?_eq_some_iff.1 ho).1
    have hidx : pyIndex owners.length i = .ok j := by
      unfold pyIndex
      rcases h with rfl | rfl
      · rw [if_pos ⟨by omega, by omega⟩]
        simp
      · rw [if_neg (by omega), if_pos ⟨by omega, by omega⟩]
        congr 1
        omega
    rw [if_neg (by rcases h with rfl | rfl <;> omega), hidx]
    simp only [ho]

/-! ### An example -/

/-- Values: an index, a list of numbers or of booleans, a boolean. -/
inductive ExV
  | int (i : ℤ)
  | nums (l : List ℤ)
  | bools (l : List Bool)
  | bool (b : Bool)
  deriving DecidableEq

/-- A Python that knows a few texts. -/
def exPy : Python ℤ ExV where
  eval := fun t =>
    if t = "0".toList then some (.int 0) else if t = "1".toList then some (.int 1)
    else if t = "-1".toList then some (.int (-1)) else if t = "2".toList then some (.int 2)
    else if t = "[3, 7]".toList then some (.nums [3, 7])
    else if t = "[True, False]".toList then some (.bools [true, false])
    else if t = "True".toList then some (.bool true) else if t = "False".toList then some (.bool false) else none
  index := fun v => match v with | .int i => some i | .bool b => some (if b then 1 else 0) | _ => none
  pars := fun v => match v with | .nums l => .ok (l, false) | .bools l => .ok (l.map (fun b => if b then 1 else 0), true) | _ => .error .type
  free := fun v => match v with | .bools l => .ok (some l) | .nums l => .ok (some (l.map (fun i => decide (i ≠ 0)))) | _ => .error .type
  truth := fun v => match v with | .bool b => b | .int i => decide (i ≠ 0) | _ => true
  isNone := fun _ => false
  reprNum := fun _ k => if k = 3 then ['3'] else if k = 7 then ['7'] else "nan".toList
  reprFree := reprBool

/-- Two functions with two parameters. -/
def exOwner (id : ℕ) : Owner ℤ := ⟨id, 2, [("a", 0), ("b", 1)], fun _ r => r, fun _ _ _ => [], fun p _ _ => .ok p⟩

/-- A part of the second. -/
def exTextPart : Part ℤ := ⟨exOwner 8, [3, 7], [true, false], false, true, false⟩

theorem exReadable : Readable exPy exTextPart 1 where
  index := ⟨.int 1, by decide, rfl⟩
  pars := ⟨.nums [3, 7], by decide, rfl⟩
  free := ⟨.bools [true, false], by decide, rfl⟩
  bool := fun b => ⟨.bool b, by cases b <;> decide, rfl⟩
  numLine := by
    intro x hx
    simp only [exTextPart, List.mem_cons, List.not_mem_nil, or_false] at hx
    rcases hx with rfl | rfl <;> (intro c hc; revert c; decide)
  freeLine := oneLine_reprBool

/-- Instance of `c76_roundtrip`. -/
example : writestr exPy exTextPart [exOwner 5, exOwner 8] =
      .ok "owner=1\npars=[3, 7]\nfree=[True, False]\nremovable=False\nstatic_owner=True\n".toList ∧
    factory exPy true "  owner=1\npars=[3, 7]\nfree=[True, False]\nremovable=False\nstatic_owner=True\n\n".toList
      [exOwner 5, exOwner 8] = .ok exTextPart := by
  have hw : writestr exPy exTextPart [exOwner 5, exOwner 8] =
      .ok "owner=1\npars=[3, 7]\nfree=[True, False]\nremovable=False\nstatic_owner=True\n".toList := by decide
  refine ⟨hw, ?_⟩
  have := c76_roundtrip exPy exTextPart [exOwner 5, exOwner 8] _ true (by
      intro o ho hid
      simp only [List.mem_cons, List.not_mem_nil, or_false] at ho
      rcases ho with rfl | rfl
      · exact absurd hid (by decide)
      · rfl) rfl rfl (fun i hi => by
        have : i = 1 := by
          have h1 : ownerIndex [exOwner 5, exOwner 8] exTextPart.owner.id = some 1 := by decide
          rw [h1] at hi
          exact (Option.some.inj hi).symm
        rw [this]; exact exReadable) hw "  ".toList "\n".toList (by intro c hc; revert c; decide) (by intro c hc; revert c; decide)
  exact this

/-- Instance of `c76_malformed` and `c76_nan_unreadable`: the last parameter is not a number. -/
example : writestr exPy { exTextPart with pars := [3, 5] } [exOwner 5, exOwner 8] =
      .ok "owner=1\npars=[3, nan]\nfree=[True, False]\nremovable=False\nstatic_owner=True\n".toList ∧
    exPy.eval (listText ([3, 5].map (exPy.reprNum false))) = none ∧ BadLine exPy "pars=[3, nan]".toList ∧
    BadLine exPy "pars".toList := by
  refine ⟨by decide, by decide, .inr ⟨"pars".toList, "[3, nan]".toList, rfl, by decide, by decide⟩, .inl (by decide)⟩

/-- Instance of `c76_owner_index`: with two functions, `owner=2` is IndexError and `owner=-1` the last. -/
example : (readDict exPy (splitlines (strip "owner=2\npars=[3, 7]".toList)) []).map (fun d => d.get "owner".toList) =
      .ok (some (.int 2)) ∧
    (match factory exPy true "owner=2\npars=[3, 7]".toList [exOwner 5, exOwner 8] with | .error e => decide (e = .index) | .ok _ => false) = true ∧
    (match factory exPy true "owner=-1\npars=[3, 7]".toList [exOwner 5, exOwner 8] with | .ok p => decide (p.owner.id = 8) | .error _ => false) = true := by
  decide

end Verif.Text
