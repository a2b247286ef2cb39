import Verif.Text.Model

/-!
# Lemmas about texts
-/

namespace Verif.Text

open Verif.Py Verif.Parts

/-- No line break in the text. -/
def OneLine (t : List Char) : Prop := ∀ c ∈ t, isBreak c = false

theorem oneLine_append {s t : List Char} : OneLine (s ++ t) ↔ OneLine s ∧ OneLine t := by
  unfold OneLine
  simp only [List.mem_append]
  constructor
  · exact fun h => ⟨fun c hc => h c (.inl hc), fun c hc => h c (.inr hc)⟩
  · rintro ⟨h1, h2⟩ c (hc | hc)
    · exact h1 c hc
    · exact h2 c hc

theorem oneLine_cons {c : Char} {t : List Char} : OneLine (c :: t) ↔ isBreak c = false ∧ OneLine t := by
  unfold OneLine
  simp

theorem splitlinesFrom_char (cur : List Char) {c : Char} (cs : List Char) (h : isBreak c = false) :
    splitlinesFrom cur (c :: cs) = splitlinesFrom (c :: cur) cs := by
  rw [splitlinesFrom.eq_def]
  split
  · rename_i he; cases he
  · rename_i he
    cases he
    exact absurd h (by decide)
  · rename_i he
    cases he
    rw [if_neg (by simp [h])]

theorem splitlinesFrom_newline (cur cs : List Char) :
    splitlinesFrom cur ('\n' :: cs) = cur.reverse :: splitlinesFrom [] cs := by
  rw [splitlinesFrom.eq_def]
  split
  · rename_i he; cases he
  · rename_i he; cases he
  · rename_i he
    cases he
    rw [if_pos (by decide)]

theorem splitlinesFrom_append (cur l cs : List Char) (h : OneLine l) :
    splitlinesFrom cur (l ++ cs) = splitlinesFrom (l.reverse ++ cur) cs := by
  induction l generalizing cur with
  | nil => rfl
  | cons c l ih =>
    rw [oneLine_cons] at h
    rw [List.cons_append, splitlinesFrom_char _ _ h.1, ih _ h.2, List.reverse_cons, List.append_assoc]
    rfl

theorem splitlines_line (l cs : List Char) (h : OneLine l) : splitlines (l ++ '\n' :: cs) = l :: splitlines cs := by
  unfold splitlines
  rw [splitlinesFrom_append _ _ _ h, splitlinesFrom_newline]
  simp

theorem splitlines_last (l : List Char) (h : OneLine l) (hne : l ≠ []) : splitlines l = [l] := by
  unfold splitlines
  have := splitlinesFrom_append [] l [] h
  rw [List.append_nil, List.append_nil] at this
  rw [this, splitlinesFrom]
  · rw [if_neg (by simpa using hne), List.reverse_reverse]

/-- Lines joined and split again; the last must not be empty. -/
theorem splitlines_join (ls : List (List Char)) (h : ∀ l ∈ ls, OneLine l) (last : List Char) (hl : OneLine last) (hne : last ≠ []) :
    splitlines (join ['\n'] (ls ++ [last])) = ls ++ [last] := by
  induction ls with
  | nil => exact splitlines_last last hl hne
  | cons l ls ih =>
    have e : join ['\n'] (l :: ls ++ [last]) = l ++ '\n' :: join ['\n'] (ls ++ [last]) := by
      cases ls <;> simp [join]
    rw [e, splitlines_line _ _ (h l (by simp)), ih (fun l' hl' => h l' (by simp [hl']))]
    rfl

theorem splitlines_join_newline (ls : List (List Char)) (h : ∀ l ∈ ls, OneLine l) (hne : ls ≠ []) :
    splitlines (join ['\n'] ls ++ ['\n']) = ls := by
  induction ls with
  | nil => exact absurd rfl hne
  | cons l ls ih =>
    cases ls with
    | nil =>
      have : splitlines (l ++ '\n' :: []) = l :: splitlines [] := splitlines_line l [] (h l (by simp))
      simpa [join, splitlines, splitlinesFrom] using this
    | cons l' ls =>
      have e : join ['\n'] (l :: l' :: ls) ++ ['\n'] = l ++ '\n' :: (join ['\n'] (l' :: ls) ++ ['\n']) := by
        simp [join]
      rw [e, splitlines_line _ _ (h l (by simp)), ih (fun x hx => h x (by simp [hx])) (by simp)]

/-- Only white space. -/
def Blank (t : List Char) : Prop := ∀ c ∈ t, isSpace c = true

theorem dropWhile_blank {w : List Char} (h : Blank w) (t : List Char) : (w ++ t).dropWhile isSpace = t.dropWhile isSpace := by
  induction w with
  | nil => rfl
  | cons c w ih =>
    rw [List.cons_append, List.dropWhile_cons_of_pos (h c (by simp))]
    exact ih (fun c' hc' => h c' (by simp [hc']))

theorem strip_core (w1 w2 : List Char) (h1 : Blank w1) (h2 : Blank w2) (a b : Char) (t : List Char)
    (ha : isSpace a = false) (hb : isSpace b = false) :
    strip (w1 ++ (a :: t ++ [b]) ++ w2) = a :: t ++ [b] := by
  unfold strip
  rw [List.append_assoc, dropWhile_blank h1, List.cons_append, List.cons_append,
    List.dropWhile_cons_of_neg (by simp [ha])]
  have : (a :: (t ++ [b] ++ w2)).reverse = w2.reverse ++ (b :: (a :: t).reverse) := by simp
  rw [this, dropWhile_blank (fun c hc => h2 c (by simpa using hc)), List.dropWhile_cons_of_neg (by simp [hb])]
  simp

theorem splitEq_spec (k t : List Char) (h : '=' ∉ k) : splitEq (k ++ '=' :: t) = some (k, t) := by
  induction k with
  | nil => rfl
  | cons c k ih =>
    rw [List.mem_cons, not_or] at h
    rw [List.cons_append, splitEq, if_neg (fun e => h.1 e.symm), ih h.2]
    rfl

theorem splitEq_none (l : List Char) : splitEq l = none ↔ '=' ∉ l := by
  induction l with
  | nil => simp [splitEq]
  | cons c l ih =>
    rw [splitEq]
    by_cases h : c = '='
    · simp [h]
    · rw [if_neg h, Option.map_eq_none_iff, ih, List.mem_cons]
      simp [Ne.symm h]

theorem splitEq_some {l k t : List Char} (h : splitEq l = some (k, t)) : l = k ++ '=' :: t ∧ '=' ∉ k := by
  induction l generalizing k with
  | nil => cases h
  | cons c l ih =>
    rw [splitEq] at h
    by_cases hc : c = '='
    · rw [if_pos hc] at h
      cases h
      exact ⟨by rw [hc]; rfl, by simp⟩
    · rw [if_neg hc] at h
      obtain ⟨⟨k', t'⟩, h1, h2⟩ := Option.map_eq_some_iff.1 h
      cases h2
      obtain ⟨e, hn⟩ := ih h1
      refine ⟨by rw [e]; rfl, ?_⟩
      rw [List.mem_cons, not_or]
      exact ⟨fun e => hc e.symm, hn⟩

theorem oneLine_join {sep : List Char} (hs : OneLine sep) (ls : List (List Char)) (h : ∀ l ∈ ls, OneLine l) :
    OneLine (join sep ls) := by
  match ls with
  | [] => exact fun c hc => nomatch hc
  | [l] => exact h l (by simp)
  | l :: l' :: ls =>
    rw [join, oneLine_append, oneLine_append]
    exact ⟨⟨h l (by simp), hs⟩, oneLine_join hs (l' :: ls) (fun x hx => h x (by simp [hx]))⟩

theorem oneLine_listText (ts : List (List Char)) (h : ∀ t ∈ ts, OneLine t) : OneLine (listText ts) := by
  unfold listText
  rw [List.cons_append, oneLine_cons, oneLine_append]
  exact ⟨by decide, oneLine_join (by intro c hc; revert c; decide) ts h, by intro c hc; revert c; decide⟩

theorem isDigit_not_break {c : Char} (h : c.isDigit = true) : isSpace c = false := by
  have h' : 48 ≤ c.val ∧ c.val ≤ 57 := by simpa [Char.isDigit] using h
  have key : ∀ n : Fin 10, isSpace (Char.ofNat (48 + n)) = false := by decide
  have hc : c = Char.ofNat (48 + (c.val.toNat - 48)) := by
    have h1 : 48 ≤ c.val.toNat := h'.1
    rw [Nat.add_sub_cancel' h1]
    exact (Char.ofNat_toNat c).symm
  rw [hc]
  have h2 : c.val.toNat - 48 < 10 := by
    have : c.val.toNat ≤ 57 := h'.2
    omega
  exact key ⟨_, h2⟩

theorem isBreak_of_isSpace {c : Char} (h : isSpace c = false) : isBreak c = false := by
  unfold isSpace at h
  simp only [Bool.or_eq_false_iff] at h
  tauto

theorem reprNat_digit {n : ℕ} {c : Char} (h : c ∈ reprNat n) : isSpace c = false :=
  isDigit_not_break (Nat.isDigit_of_mem_toDigits (by decide) (by decide) h)

theorem oneLine_reprNat (n : ℕ) : OneLine (reprNat n) := fun _ hc => isBreak_of_isSpace (reprNat_digit hc)

theorem oneLine_reprBool (b : Bool) : OneLine (reprBool b) := by
  cases b <;> (intro c hc; revert c; decide)

end Verif.Text
