import Verif.Text.Parts
import Verif.Text.ClusterModel
import Verif.Pdf.Vars

/-!
# Lemmas about the text of a cluster
-/

namespace Verif.Text

open Verif.Py Verif.Parts

open Verif.Pdf (splitLines splitLines_line)

set_option linter.unusedSectionVars false

variable {K V E : Type}

/-! ### Lines -/

theorem splitLines_ne_nil (s : List Char) : splitLines s ≠ [] := by
  cases s with
  | nil => simp [splitLines]
  | cons c cs =>
    rw [splitLines]
    split
    · simp
    · split <;> simp

theorem splitLines_append (a b : List Char) : splitLines (a ++ '\n' :: b) = splitLines a ++ splitLines b := by
  induction a with
  | nil => simp [splitLines]
  | cons c a ih =>
    rw [List.cons_append, splitLines, splitLines, ih]
    split
    · rfl
    · cases h : splitLines a with
      | nil => exact absurd h (splitLines_ne_nil a)
      | cons l ls => rfl

theorem splitLines_single (l : List Char) (h : '\n' ∉ l) : splitLines l = [l] := by
  induction l with
  | nil => rfl
  | cons c l ih =>
    simp only [List.mem_cons, not_or] at h
    rw [splitLines, if_neg (fun e => h.1 e.symm), ih h.2]

theorem join_cons (sep l : List Char) {ls : List (List Char)} (h : ls ≠ []) : join sep (l :: ls) = l ++ sep ++ join sep ls := by
  cases ls with
  | nil => exact absurd rfl h
  | cons l' ls => rfl

theorem splitLines_join (ls : List (List Char)) (h : ls ≠ []) : splitLines (join ['\n'] ls) = ls.flatMap splitLines := by
  induction ls with
  | nil => exact absurd rfl h
  | cons l ls ih =>
    cases ls with
    | nil => simp [join]
    | cons l' ls =>
      rw [join_cons _ _ (by simp), List.append_assoc, List.singleton_append, splitLines_append, ih (by simp)]
      simp only [List.flatMap_cons]

theorem flatMap_lines (ls : List (List Char)) (h : ∀ l ∈ ls, '\n' ∉ l) : ls.flatMap splitLines = ls := by
  induction ls with
  | nil => rfl
  | cons l ls ih =>
    rw [List.flatMap_cons, splitLines_single l (h l (by simp)), ih (fun x hx => h x (by simp [hx]))]
    rfl

theorem oneLine_newline {l : List Char} (h : OneLine l) : '\n' ∉ l := fun hm => absurd (h _ hm) (by decide)

theorem splitLines_text (ls : List (List Char)) (h : ∀ l ∈ ls, '\n' ∉ l) (hne : ls ≠ []) :
    splitLines (join ['\n'] ls ++ ['\n']) = ls ++ [[]] := by
  have : join ['\n'] ls ++ ['\n'] = join ['\n'] ls ++ '\n' :: [] := rfl
  rw [this, splitLines_append, splitLines_join ls hne, flatMap_lines ls h]
  rfl

theorem join_snoc_nil (ls : List (List Char)) (hne : ls ≠ []) : join ['\n'] (ls ++ [[]]) = join ['\n'] ls ++ ['\n'] := by
  induction ls with
  | nil => exact absurd rfl hne
  | cons l ls ih =>
    cases ls with
    | nil => simp [join]
    | cons l' ls =>
      have e1 : join ['\n'] (l :: l' :: ls ++ [[]]) = l ++ ['\n'] ++ join ['\n'] (l' :: ls ++ [[]]) := rfl
      have e2 : join ['\n'] (l :: l' :: ls) = l ++ ['\n'] ++ join ['\n'] (l' :: ls) := rfl
      rw [e1, e2, ih (by simp)]
      simp only [List.append_assoc]

/-! ### Markers -/

/-- The line does not start with `#`. -/
def Plain (l : List Char) : Prop := l.head? ≠ some '#'

theorem afterMarker_plain (name : List Char) {l : List Char} (h : Plain l) : afterMarker name l = none := by
  unfold afterMarker
  split
  · exact absurd rfl h
  · rfl

theorem cut_append (name m rest : List Char) (a b : List (List Char)) (ha : ∀ l ∈ a, afterMarker name l = none)
    (hm : afterMarker name m = some rest) : cut name (a ++ m :: b) = some (a, rest :: b) := by
  induction a with
  | nil => rw [List.nil_append, cut, hm]
  | cons l a ih =>
    rw [List.cons_append, cut, ha l (by simp)]
    simp only
    rw [ih (fun x hx => ha x (by simp [hx]))]
    rfl

theorem cut_none (name : List Char) (a : List (List Char)) (ha : ∀ l ∈ a, afterMarker name l = none) : cut name a = none := by
  induction a with
  | nil => rfl
  | cons l a ih =>
    rw [cut, ha l (by simp)]
    simp only
    rw [ih (fun x hx => ha x (by simp [hx]))]
    rfl

theorem skip_blank (ls : List (List Char)) : skipComments ([] :: ls) = skipComments ls := by
  rw [skipComments]
  rfl

theorem skip_plain (c : Char) (cs : List Char) (ls : List (List Char)) (hs : isSpace c = false) (hc : c ≠ '#') :
    skipComments ((c :: cs) :: ls) = ([], (c :: cs) :: ls) := by
  rw [skipComments]
  have : (c :: cs).dropWhile isSpace = c :: cs := List.dropWhile_cons_of_neg (by simp [hs])
  rw [this]
  simp only
  rw [if_neg hc]

/-! ### White space -/

theorem strip_eq (t : List Char) (h1 : ∀ c, t.head? = some c → isSpace c = false)
    (h2 : ∀ c, t.getLast? = some c → isSpace c = false) : strip t = t := by
  unfold strip
  have e1 : t.dropWhile isSpace = t := by
    cases t with
    | nil => rfl
    | cons c t => exact List.dropWhile_cons_of_neg (by simp [h1 c rfl])
  rw [e1]
  have e2 : t.reverse.dropWhile isSpace = t.reverse := by
    cases hr : t.reverse with
    | nil => rfl
    | cons c u =>
      refine List.dropWhile_cons_of_neg ?_
      have : t.getLast? = some c := by rw [← List.head?_reverse, hr]; rfl
      simp [h2 c this]
  rw [e2, List.reverse_reverse]

theorem strip_word (t : List Char) (h : ∀ c ∈ t, isSpace c = false) : strip t = t :=
  strip_eq t (fun c hc => h c (List.mem_of_mem_head? hc)) (fun c hc => h c (List.mem_of_getLast? hc))

theorem strip_listText (ts : List (List Char)) : strip (listText ts) = listText ts := by
  apply strip_eq
  · intro c hc
    unfold listText at hc
    rw [List.cons_append, List.head?_cons] at hc
    cases hc
    decide
  · intro c hc
    unfold listText at hc
    rw [List.getLast?_concat] at hc
    cases hc
    decide

theorem field_hit (name t : List Char) (before after : List (List Char)) (h : ∀ l ∈ before, ¬ name <+: l) :
    field name (before ++ (name ++ t) :: after) = some (strip t) := by
  unfold field
  have : (before ++ (name ++ t) :: after).findSome? (fun l => if name.isPrefixOf l then some (l.drop name.length) else none) =
      some t := by
    induction before with
    | nil =>
      rw [List.nil_append, List.findSome?_cons, if_pos (by simp)]
      simp
    | cons l before ih =>
      rw [List.cons_append, List.findSome?_cons, if_neg (by
        have := h l (by simp)
        simpa using this), ih (fun x hx => h x (by simp [hx]))]
  rw [this]
  rfl

/-! ### Columns -/

theorem wordsFrom_word (p : Char → Bool) (cur w : List Char) (h : ∀ c ∈ w, p c = true) (rest : List Char) :
    wordsFrom p cur (w ++ rest) = wordsFrom p (w.reverse ++ cur) rest := by
  induction w generalizing cur with
  | nil => rfl
  | cons c w ih =>
    rw [List.cons_append, wordsFrom, if_pos (h c (by simp)), ih _ (fun x hx => h x (by simp [hx]))]
    simp

theorem fields_three (a b c : List Char) (ha : a ≠ []) (hb : b ≠ []) (hc : c ≠ []) (sa : ∀ x ∈ a, isSpace x = false)
    (sb : ∀ x ∈ b, isSpace x = false) (sc : ∀ x ∈ c, isSpace x = false) :
    fields (a ++ ' ' :: (b ++ ' ' :: c)) = [a, b, c] := by
  have sp : isSpace ' ' = true := by decide
  unfold fields
  rw [wordsFrom_word _ _ _ (fun x hx => by simp [sa x hx]), List.append_nil, wordsFrom, if_neg (by simp [sp]),
    if_neg (by simpa using ha), wordsFrom_word _ _ _ (fun x hx => by simp [sb x hx]), List.append_nil, wordsFrom,
    if_neg (by simp [sp]), if_neg (by simpa using hb)]
  have := wordsFrom_word (fun c => !isSpace c) [] c (fun x hx => by simp [sc x hx]) []
  rw [List.append_nil, List.append_nil] at this
  rw [this, wordsFrom, if_neg (by simpa using hc)]
  simp

/-- The three numbers of each point. -/
def triples : List K → List K → List K → List (List K)
  | a :: r, b :: y, c :: e => [a, b, c] :: triples r y e
  | _, _, _ => []

theorem dataText_ok (fmt : K → List Char) (r y e : List K) (hy : y.length = r.length) (he : e.length = r.length) :
    dataText fmt r y e = .ok ((triples r y e).map (fun row => match row with
      | [a, b, c] => fmt a ++ ' ' :: (fmt b ++ ' ' :: fmt c)
      | _ => [])) := by
  induction r generalizing y e with
  | nil => rfl
  | cons a r ih =>
    cases y with
    | nil => cases hy
    | cons b y =>
      cases e with
      | nil => cases he
      | cons c e =>
        rw [dataText, ih y e (by simpa using hy) (by simpa using he)]
        rfl

theorem triples_mem {r y e : List K} {row : List K} (h : row ∈ triples r y e) :
    ∃ a b c, row = [a, b, c] ∧ a ∈ r ∧ b ∈ y ∧ c ∈ e := by
  induction r generalizing y e with
  | nil => cases h
  | cons a r ih =>
    cases y with
    | nil => cases h
    | cons b y =>
      cases e with
      | nil => cases h
      | cons c e =>
        rw [triples] at h
        rcases List.mem_cons.1 h with rfl | h
        · exact ⟨a, b, c, rfl, by simp, by simp, by simp⟩
        · obtain ⟨a', b', c', rfl, h1, h2, h3⟩ := ih h
          exact ⟨a', b', c', rfl, by simp [h1], by simp [h2], by simp [h3]⟩

theorem triples_columns (g : K → K) (r y e : List K) (hy : y.length = r.length) (he : e.length = r.length) :
    ((triples r y e).map (List.map g)).filterMap (fun row => row[(0 : ℕ)]?) = r.map g ∧
    ((triples r y e).map (List.map g)).filterMap (fun row => row[(1 : ℕ)]?) = y.map g ∧
    ((triples r y e).map (List.map g)).filterMap (fun row => row[(2 : ℕ)]?) = e.map g := by
  induction r generalizing y e with
  | nil =>
    cases y with
    | nil =>
      cases e with
      | nil => exact ⟨rfl, rfl, rfl⟩
      | cons _ _ => cases he
    | cons _ _ => cases hy
  | cons a r ih =>
    cases y with
    | nil => cases hy
    | cons b y =>
      cases e with
      | nil => cases he
      | cons c e =>
        obtain ⟨h1, h2, h3⟩ := ih y e (by simpa using hy) (by simpa using he)
        refine ⟨?_, ?_, ?_⟩ <;> rw [triples, List.map_cons, List.filterMap_cons]
        · rw [h1]; rfl
        · rw [h2]; rfl
        · rw [h3]; rfl

end Verif.Text
