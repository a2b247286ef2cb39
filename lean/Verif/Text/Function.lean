import Verif.Text.Parts
import Mathlib.Data.List.TakeDrop

/-!
# C76: base functions written as text and read again
-/

namespace Verif.Text

open Verif.Py Verif.Parts

set_option linter.unusedSectionVars false

variable {K V : Type}

/-- The first word of a text. -/
def firstWord (t : List Char) : List Char := t.takeWhile (fun c => !isSpace c)

/-- A key: not empty, no white space. -/
def IsKey (k : List Char) : Prop := k ≠ [] ∧ ∀ c ∈ k, isSpace c = false

theorem isKey_function : IsKey "function".toList := ⟨by decide, by intro c hc; revert c; decide⟩

theorem isKey_module : IsKey "module".toList := ⟨by decide, by intro c hc; revert c; decide⟩

theorem isKey_base : IsKey "base".toList := ⟨by decide, by intro c hc; revert c; decide⟩

theorem takeWhile_word (k t : List Char) (h : ∀ c ∈ k, isSpace c = false) :
    (k ++ t).takeWhile (fun c => !isSpace c) = k ++ t.takeWhile (fun c => !isSpace c) ∧
    (k ++ t).dropWhile (fun c => !isSpace c) = t.dropWhile (fun c => !isSpace c) := by
  induction k with
  | nil => exact ⟨rfl, rfl⟩
  | cons c k ih =>
    have hc : (!isSpace c) = true := by rw [h c (by simp)]; rfl
    obtain ⟨i1, i2⟩ := ih (fun c' hc' => h c' (by simp [hc']))
    rw [List.cons_append, List.takeWhile_cons_of_pos (p := fun c => !isSpace c) hc,
      List.dropWhile_cons_of_pos (p := fun c => !isSpace c) hc, i1, i2]
    exact ⟨rfl, rfl⟩

theorem span_neq (a b : List Char) (h : '=' ∉ a) :
    (a ++ '=' :: b).span (fun c => decide (c ≠ '=')) = (a, '=' :: b) := by
  rw [List.span_eq_takeWhile_dropWhile]
  have : ∀ c ∈ a, decide (c ≠ '=') = true := fun c hc => by
    rw [decide_eq_true_eq]; rintro rfl; exact h hc
  rw [List.takeWhile_append_of_pos this, List.dropWhile_append_of_pos this]
  simp

/-- The greedy match splits at the last `=` of the first word. -/
theorem keyOf_line (k t : List Char) (hk : IsKey k) (ht : '=' ∉ firstWord t) : keyOf (k ++ '=' :: t) = some (k, t) := by
  obtain ⟨h1, h2⟩ := takeWhile_word (k ++ ['=']) t (by
    intro c hc
    rcases List.mem_append.1 hc with hc | hc
    · exact hk.2 c hc
    · simp at hc; subst hc; decide)
  have e : k ++ '=' :: t = (k ++ ['=']) ++ t := by simp
  have hrev : (k ++ ['='] ++ t.takeWhile (fun c => !isSpace c)).reverse =
      (t.takeWhile (fun c => !isSpace c)).reverse ++ '=' :: k.reverse := by simp
  unfold keyOf
  rw [e]
  simp only [h1, h2, hrev]
  rw [span_neq _ _ (by rw [List.mem_reverse]; exact ht)]
  obtain ⟨d, ds, hd⟩ : ∃ d ds, k.reverse = d :: ds := by
    cases hr : k.reverse with
    | nil => exact absurd (by simpa using hr) hk.1
    | cons d ds => exact ⟨d, ds, rfl⟩
  rw [hd]
  simp only [List.reverse_reverse, List.takeWhile_append_dropWhile]
  rw [← hd, List.reverse_reverse]

theorem splitKeys_lines (es : List (List Char × List Char)) (hk : ∀ e ∈ es, IsKey e.1) (ht : ∀ e ∈ es, '=' ∉ firstWord e.2) :
    splitKeys (es.map (fun e => e.1 ++ '=' :: e.2)) = ([], es) := by
  induction es with
  | nil => rfl
  | cons e es ih =>
    rw [List.map_cons, splitKeys, ih (fun e he => hk e (by simp [he])) (fun e he => ht e (by simp [he]))]
    simp only [keyOf_line e.1 e.2 (hk e (by simp)) (ht e (by simp))]
    have : (if es = [] then ([] : List (List Char)) else dropEmpty []) = [] := by split <;> rfl
    rw [this]
    rfl

theorem set_new {W : Type} (d : Dict W) (k : List Char) (v : W) (h : k ∉ d.map Prod.fst) : d.set k v = d ++ [(k, v)] := by
  unfold Dict.set
  rw [if_neg]
  rw [List.any_eq_true]
  rintro ⟨e, he, hek⟩
  exact h (List.mem_map.2 ⟨e, he, by simpa using hek⟩)

theorem foldl_set {W : Type} (es d : Dict W) (h : (d ++ es).map Prod.fst |>.Nodup) :
    es.foldl (fun d e => d.set e.1 e.2) d = d ++ es := by
  induction es generalizing d with
  | nil => simp
  | cons e es ih =>
    rw [List.foldl_cons, set_new]
    · rw [ih]
      · simp
      · simpa using h
    · rw [List.map_append, List.map_cons, List.nodup_append] at h
      exact fun hm => h.2.2 _ hm _ List.mem_cons_self rfl

theorem foldr_eval (P : Python K V) (es : Dict (List Char)) (kw : Dict V)
    (h : List.Forall₂ (fun e d => d.1 = e.1 ∧ P.eval e.2 = some d.2) es kw) :
    es.foldr (fun e acc =>
      match P.eval e.2 with
      | none => (.error .dataFormat : Res (Dict V))
      | some v => match acc with | .error x => .error x | .ok d => .ok ((e.1, v) :: d)) (.ok []) = .ok kw := by
  induction h with
  | nil => rfl
  | cons hd _ ih =>
    rename_i e d _ _
    rw [List.foldr_cons, ih]
    simp only [hd.2]
    rw [← hd.1]

theorem get_mem {d : Dict V} (hn : (d.map Prod.fst).Nodup) {k : List Char} {v : V} (h : (k, v) ∈ d) : d.get k = some v := by
  unfold Dict.get
  induction d with
  | nil => cases h
  | cons e d ih =>
    rw [List.map_cons, List.nodup_cons] at hn
    rw [List.find?_cons]
    rcases List.mem_cons.1 h with he | h
    · rw [← he]
      simp
    · have hne : e.1 ≠ k := fun he => hn.1 (List.mem_map.2 ⟨(k, v), h, he.symm⟩)
      simp only [hne, decide_false]
      exact ih hn.2 h

/-- What a function needs so that its text can be read: the other keys are words, different from each other and from
the three fixed ones; every value is written in one line, with no `=` in its first word, and evaluates to the value it was
made from; the index of the base is in the list. -/
structure FnReadable (P : Python K V) (f : FnText) (n : ℕ) (r : FnRead V) : Prop where
  keys : ∀ e ∈ f.pairs, IsKey e.1
  distinct : ("function".toList :: "module".toList :: "base".toList :: f.pairs.map Prod.fst).Nodup
  lines : ∀ t ∈ f.name :: f.module :: f.pairs.map Prod.snd, OneLine t
  noeq : ∀ t ∈ f.name :: f.module :: f.pairs.map Prod.snd, '=' ∉ firstWord t
  name : P.eval f.name = some r.name
  mod : P.eval f.module = some r.module
  base : r.base = f.base
  noBase : f.base = none → ∃ v, P.eval "None".toList = some v ∧ P.isNone v = true
  theBase : ∀ i, f.base = some i → i < n ∧ ∃ v, P.eval (reprNat i) = some v ∧ P.isNone v = false ∧ P.index v = some (i : ℤ)
  pairs : List.Forall₂ (fun e d => d.1 = e.1 ∧ P.eval e.2 = some d.2) f.pairs r.pairs

/-- The text of the base. -/
def baseText (f : FnText) : List Char := match f.base with | none => "None".toList | some i => reprNat i

theorem baseText_space (f : FnText) : ∀ c ∈ baseText f, isSpace c = false ∧ c ≠ '=' := by
  unfold baseText
  cases f.base with
  | none => intro c hc; revert c; decide
  | some i =>
    intro c hc
    refine ⟨reprNat_digit hc, ?_⟩
    rintro rfl
    have := Nat.isDigit_of_mem_toDigits (by decide) (by decide) hc
    exact absurd this (by decide)

/-- **C76.** What `BaseFunction.writestr` writes, `factory` reads back as the same class and module, the same base in the
list and the same keywords. -/
theorem c76_function_roundtrip (P : Python K V) (f : FnText) (n : ℕ) (r : FnRead V) (h : FnReadable P f n r) :
    fnFactory P (fnWritestr f) n = .ok r := by
  -- the entries written
  have hes : fnWritestr f = join ['\n'] ((("function".toList, f.name) :: ("module".toList, f.module) ::
      ("base".toList, baseText f) :: f.pairs).map (fun e => e.1 ++ '=' :: e.2)) ++ ['\n'] := rfl
  generalize hg : (("function".toList, f.name) :: ("module".toList, f.module) :: ("base".toList, baseText f) :: f.pairs) = es at hes
  have hmem : ∀ e ∈ es, e = ("function".toList, f.name) ∨ e = ("module".toList, f.module) ∨
      e = ("base".toList, baseText f) ∨ e ∈ f.pairs := by
    intro e he
    rw [← hg] at he
    simpa using he
  have hkey : ∀ e ∈ es, IsKey e.1 := by
    intro e he
    rcases hmem e he with rfl | rfl | rfl | he
    · exact isKey_function
    · exact isKey_module
    · exact isKey_base
    · exact h.keys e he
  have hline : ∀ e ∈ es, OneLine e.2 := by
    intro e he
    rcases hmem e he with rfl | rfl | rfl | he
    · exact h.lines _ (by simp)
    · exact h.lines _ (by simp)
    · exact fun c hc => isBreak_of_isSpace (baseText_space f c hc).1
    · exact h.lines _ (by simp only [List.mem_cons, List.mem_map]; exact .inr (.inr ⟨e, he, rfl⟩))
  have hnoeq : ∀ e ∈ es, '=' ∉ firstWord e.2 := by
    intro e he
    rcases hmem e he with rfl | rfl | rfl | he
    · exact h.noeq _ (by simp)
    · exact h.noeq _ (by simp)
    · intro hm
      exact (baseText_space f '=' ((List.takeWhile_prefix _).subset hm)).2 rfl
    · exact h.noeq _ (by simp only [List.mem_cons, List.mem_map]; exact .inr (.inr ⟨e, he, rfl⟩))
  have hsl : splitlines (fnWritestr f) = es.map (fun e => e.1 ++ '=' :: e.2) := by
    rw [hes]
    apply splitlines_join_newline
    · intro l hl
      obtain ⟨e, he, rfl⟩ := List.mem_map.1 hl
      rw [oneLine_append, oneLine_cons]
      exact ⟨fun c hc => isBreak_of_isSpace ((hkey e he).2 c hc), by decide, hline e he⟩
    · rw [← hg]; simp
  have hnd : (es.map Prod.fst).Nodup := by rw [← hg]; simpa using h.distinct
  -- the values
  obtain ⟨vb, hvb⟩ : ∃ v, P.eval (baseText f) = some v := by
    unfold baseText
    cases hb : f.base with
    | none => obtain ⟨v, hv, -⟩ := h.noBase hb; exact ⟨v, hv⟩
    | some i => obtain ⟨-, v, hv, -⟩ := h.theBase i hb; exact ⟨v, hv⟩
  have hfor : List.Forall₂ (fun e d => d.1 = e.1 ∧ P.eval e.2 = some d.2) es
      (("function".toList, r.name) :: ("module".toList, r.module) :: ("base".toList, vb) :: r.pairs) := by
    rw [← hg]
    exact .cons ⟨rfl, h.name⟩ (.cons ⟨rfl, h.mod⟩ (.cons ⟨rfl, hvb⟩ h.pairs))
  have hkeys : ∀ (a : Dict (List Char)) (b : Dict V), List.Forall₂ (fun e d => d.1 = e.1 ∧ P.eval e.2 = some d.2) a b →
      b.map Prod.fst = a.map Prod.fst := by
    intro a b hab
    induction hab with
    | nil => rfl
    | cons hd _ ih => rw [List.map_cons, List.map_cons, hd.1, ih]
  have hdict : fnDict P (fnWritestr f) =
      .ok (("function".toList, r.name) :: ("module".toList, r.module) :: ("base".toList, vb) :: r.pairs) := by
    unfold fnDict
    simp only
    rw [hsl, splitKeys_lines es hkey hnoeq, foldl_set es [] (by simpa using hnd)]
    exact foldr_eval P es _ hfor
  have hnd' := hkeys _ _ hfor ▸ hnd
  have hpk := hkeys _ _ h.pairs
  have hdist := h.distinct
  rw [← hpk] at hdist
  have hdel : (((Dict.del (("function".toList, r.name) :: ("module".toList, r.module) :: ("base".toList, vb) :: r.pairs)
      "function".toList).del "module".toList).del "base".toList) = r.pairs := by
    unfold Dict.del
    rw [List.filter_filter, List.filter_filter]
    rw [List.filter_cons_of_neg (by simp), List.filter_cons_of_neg (by simp), List.filter_cons_of_neg (by simp)]
    rw [List.filter_eq_self]
    intro e he
    have hm : e.1 ∈ r.pairs.map Prod.fst := List.mem_map.2 ⟨e, he, rfl⟩
    simp only [List.nodup_cons, List.mem_cons, not_or] at hdist
    have n1 : e.1 ≠ "function".toList := fun x => hdist.1.2.2 (x ▸ hm)
    have n2 : e.1 ≠ "module".toList := fun x => hdist.2.1.2 (x ▸ hm)
    have n3 : e.1 ≠ "base".toList := fun x => hdist.2.2.1 (x ▸ hm)
    simp only [ne_eq, n1, n2, n3, not_false_eq_true, decide_true, Bool.and_true]
  unfold fnFactory
  rw [hdict]
  simp only
  rw [get_mem hnd' (k := "function".toList) (v := r.name) (by simp)]
  simp only
  rw [get_mem hnd' (k := "module".toList) (v := r.module) (by simp)]
  simp only
  rw [get_mem hnd' (k := "base".toList) (v := vb) (by simp)]
  simp only [hdel]
  cases hb : f.base with
  | none =>
    obtain ⟨v, hv, hnv⟩ := h.noBase hb
    have : baseText f = "None".toList := by unfold baseText; rw [hb]
    rw [this, hv] at hvb
    cases hvb
    rw [if_pos hnv]
    have := h.base
    rw [hb] at this
    rw [← this]
  | some i =>
    obtain ⟨hi, v, hv, hnv, hidx⟩ := h.theBase i hb
    have : baseText f = reprNat i := by unfold baseText; rw [hb]
    rw [this, hv] at hvb
    cases hvb
    rw [if_neg (by rw [hnv]; decide), hidx]
    simp only
    rw [if_neg (by omega)]
    have hp : pyIndex n (i : ℤ) = .ok i := by
      unfold pyIndex
      rw [if_pos ⟨by omega, by omega⟩, Int.toNat_natCast]
    rw [hp]
    have := h.base
    rw [hb] at this
    simp only
    rw [← this]

/-- Values are texts. -/
def exPyT : Python ℤ (List Char) where
  eval := fun t => if t = "nan".toList then none else some t
  index := fun v => if v = "0".toList then some 0 else if v = "1".toList then some 1 else none
  pars := fun _ => .error .type
  free := fun _ => .error .type
  truth := fun _ => true
  isNone := fun v => decide (v = "None".toList)
  reprNum := fun _ _ => []
  reprFree := fun _ => []

/-- A function with a base and one keyword. -/
def exFn : FnText := ⟨"'TerminationRipples'".toList, "'m'".toList, some 0, [("qmax".toList, "20.0".toList), ("extension".toList, "4.0".toList)]⟩

/-- Instance of `c76_function_roundtrip`. -/
example : fnFactory exPyT (fnWritestr exFn) 1 =
    .ok ⟨"'TerminationRipples'".toList, "'m'".toList, some 0, [("qmax".toList, "20.0".toList), ("extension".toList, "4.0".toList)]⟩ := by
  apply c76_function_roundtrip
  constructor
  · unfold IsKey; decide
  · decide
  · unfold OneLine; decide
  · decide
  · decide
  · decide
  · rfl
  · intro h; cases h
  · intro i hi
    cases hi
    exact ⟨by decide, "0".toList, by decide, by decide, by decide⟩
  · exact .cons ⟨rfl, by decide⟩ (.cons ⟨rfl, by decide⟩ .nil)

/-- **C76, finding.** A value with `=` in its first word is read under another key: a function with keyword `a` of
value `'b=c'` comes back with a keyword named `a='b`, whatever Python is like. -/
theorem c76_equals_in_value (P : Python K V) (vn vm vb v : V) (hn : P.eval "'F'".toList = some vn)
    (hm : P.eval "'m'".toList = some vm) (hb : P.eval "None".toList = some vb) (hbn : P.isNone vb = true)
    (hv : P.eval "c'".toList = some v) (n : ℕ) :
    fnFactory P (fnWritestr ⟨"'F'".toList, "'m'".toList, none, [("a".toList, "'b=c'".toList)]⟩) n =
      .ok ⟨vn, vm, none, [("a='b".toList, v)]⟩ := by
  have hd : fnDict P (fnWritestr ⟨"'F'".toList, "'m'".toList, none, [("a".toList, "'b=c'".toList)]⟩) =
      .ok [("function".toList, vn), ("module".toList, vm), ("base".toList, vb), ("a='b".toList, v)] := by
    unfold fnDict
    simp only
    have e : (splitKeys (splitlines (fnWritestr ⟨"'F'".toList, "'m'".toList, none, [("a".toList, "'b=c'".toList)]⟩))).2.foldl
        (fun d e => Dict.set d e.1 e.2) ([] : Dict (List Char)) = [("function".toList, "'F'".toList), ("module".toList, "'m'".toList),
        ("base".toList, "None".toList), ("a='b".toList, "c'".toList)] := by decide
    rw [e]
    exact foldr_eval P _ _ (.cons ⟨rfl, hn⟩ (.cons ⟨rfl, hm⟩ (.cons ⟨rfl, hb⟩ (.cons ⟨rfl, hv⟩ .nil))))
  unfold fnFactory
  rw [hd]
  have g1 : Dict.get [("function".toList, vn), ("module".toList, vm), ("base".toList, vb), ("a='b".toList, v)] "function".toList = some vn := rfl
  have g2 : Dict.get [("function".toList, vn), ("module".toList, vm), ("base".toList, vb), ("a='b".toList, v)] "module".toList = some vm := rfl
  have g3 : Dict.get [("function".toList, vn), ("module".toList, vm), ("base".toList, vb), ("a='b".toList, v)] "base".toList = some vb := rfl
  simp only [g1, g2, g3, hbn]
  rfl

end Verif.Text
