import Verif.Text.AloneModel
import Verif.Text.ClusterProps
import Verif.Text.Function
import Mathlib.Data.List.TakeWhile

/-!
# C111: a cluster written on its own: the functions in the text
-/

namespace Verif.Text

open Verif.Py Verif.Parts

open Verif.Pdf (splitLines)

set_option linter.unusedSectionVars false

variable {K V E : Type}

/-- The functions `fs` written with a cluster come back as `fs'`: as many, all different objects, each made by the call of the
class with what was written of it, its base being the one already made, and with the same number of parameters. -/
structure Rebuilds (P : Python K V) (call : FnRead V → List (Owner K) → Res (Owner K))
    (fnText : List (Owner K) → Owner K → Res FnText) (fs fs' : List (Owner K)) : Prop where
  length : fs'.length = fs.length
  fresh : (fs'.map Owner.id).Nodup
  each : ∀ (i : ℕ) (o : Owner K), fs[i]? = some o → ∃ f r o', fnText fs o = .ok f ∧ FnReadable P f i r ∧ (∀ e ∈ f.pairs, Plain e.1) ∧
    fs'[i]? = some o' ∧ call r (fs'.take i) = .ok o' ∧ o'.npars = o.npars

/-- The functions as they are when the text is read: those given, or those rebuilt. -/
def Back (P : Python K V) (call : FnRead V → List (Owner K) → Res (Owner K))
    (fnText : List (Owner K) → Owner K → Res FnText) (given : Option (List (Owner K))) (fs fs' : List (Owner K)) : Prop :=
  match given with
  | some _ => fs' = fs
  | none => Rebuilds P call fnText fs fs'

/-! ### Lines of functions -/

/-- The lines of a function. -/
def fnKeyLines (f : FnText) : List (List Char) :=
  ("function=".toList ++ f.name) :: ("module=".toList ++ f.module) :: ("base=".toList ++ baseText f) ::
    f.pairs.map (fun e => e.1 ++ '=' :: e.2)

theorem fnWritestr_join (f : FnText) : fnWritestr f = join ['\n'] (fnKeyLines f ++ [[]]) := by
  rw [join_snoc_nil _ (by simp [fnKeyLines])]
  rfl

theorem fnKeyLines_line {P : Python K V} {f : FnText} {n : ℕ} {r : FnRead V} (h : FnReadable P f n r) :
    ∀ l ∈ fnKeyLines f, '\n' ∉ l := by
  intro l hl
  unfold fnKeyLines at hl
  rcases List.mem_cons.1 hl with rfl | hl
  · rw [List.mem_append, not_or]
    exact ⟨by decide, oneLine_newline (h.lines _ (by simp))⟩
  rcases List.mem_cons.1 hl with rfl | hl
  · rw [List.mem_append, not_or]
    exact ⟨by decide, oneLine_newline (h.lines _ (by simp))⟩
  rcases List.mem_cons.1 hl with rfl | hl
  · rw [List.mem_append, not_or]
    exact ⟨by decide, fun hm => absurd (baseText_space f _ hm).1 (by decide)⟩
  · obtain ⟨e, he, rfl⟩ := List.mem_map.1 hl
    rw [List.mem_append, not_or, List.mem_cons, not_or]
    exact ⟨fun hm => absurd ((h.keys e he).2 _ hm) (by decide), by decide,
      oneLine_newline (h.lines _ (by simp only [List.mem_cons, List.mem_map]; exact .inr (.inr ⟨e, he, rfl⟩)))⟩

theorem fnKeyLines_plain {P : Python K V} {f : FnText} {n : ℕ} {r : FnRead V} (h : FnReadable P f n r)
    (hp : ∀ e ∈ f.pairs, Plain e.1) : ∀ l ∈ fnKeyLines f, Plain l := by
  intro l hl
  unfold fnKeyLines at hl
  rcases List.mem_cons.1 hl with rfl | hl
  · exact fun h => by cases h
  rcases List.mem_cons.1 hl with rfl | hl
  · exact fun h => by cases h
  rcases List.mem_cons.1 hl with rfl | hl
  · exact fun h => by cases h
  · obtain ⟨e, he, rfl⟩ := List.mem_map.1 hl
    have h1 := (h.keys e he).1
    have h2 := hp e he
    unfold Plain at h2 ⊢
    cases hk : e.1 with
    | nil => exact absurd hk h1
    | cons a b =>
      rw [hk] at h2
      simpa using h2

/-- The lines of a section, without its title. -/
def secLines (label : List Char) : ℕ → List FnText → List (List Char)
  | _, [] => []
  | i, f :: fs => (label ++ reprNat i) :: (fnKeyLines f ++ ([] :: secLines label (i + 1) fs))

theorem secLines_mem {label : List Char} {i : ℕ} {fs : List FnText} {l : List Char} (h : l ∈ secLines label i fs) :
    (∃ j, l = label ++ reprNat j) ∨ l = [] ∨ ∃ f ∈ fs, l ∈ fnKeyLines f := by
  induction fs generalizing i with
  | nil => cases h
  | cons f fs ih =>
    rw [secLines] at h
    rcases List.mem_cons.1 h with rfl | h
    · exact .inl ⟨i, rfl⟩
    rcases List.mem_append.1 h with h | h
    · exact .inr (.inr ⟨f, by simp, h⟩)
    rcases List.mem_cons.1 h with rfl | h
    · exact .inr (.inl rfl)
    · rcases ih h with h | h | ⟨f', hf', h⟩
      · exact .inl h
      · exact .inr (.inl h)
      · exact .inr (.inr ⟨f', by simp [hf'], h⟩)

theorem reprNat_not_newline (i : ℕ) : '\n' ∉ reprNat i := oneLine_newline (oneLine_reprNat i)

/-- The section as lines, when it could be written. -/
theorem fnLines_lines {fnText : List (Owner K) → Owner K → Res FnText} (label : List Char) (hlab : '\n' ∉ label)
    (all : List (Owner K)) (i : ℕ) (os : List (Owner K)) (fs : List FnText)
    (hfs : List.Forall₂ (fun o f => fnText all o = .ok f ∧ ∀ l ∈ fnKeyLines f, '\n' ∉ l) os fs) (ts : List (List Char))
    (hw : fnLines (fun l f => (fnText l f).map fnWritestr) label all i os = .ok ts) :
    ts.flatMap splitLines = secLines label i fs := by
  induction hfs generalizing i ts with
  | nil => cases hw; rfl
  | cons hd _ ih =>
    rename_i o f os fs _
    rw [fnLines, hd.1] at hw
    simp only [Except.map] at hw
    split at hw
    · cases hw
    · rename_i ts' hts
      cases hw
      have e1 : splitLines (label ++ reprNat i) = [label ++ reprNat i] := by
        apply splitLines_single
        rw [List.mem_append, not_or]
        exact ⟨hlab, reprNat_not_newline i⟩
      have e2 : splitLines (fnWritestr f) = fnKeyLines f ++ [[]] := by
        rw [fnWritestr_join, splitLines_join _ (by simp), flatMap_lines]
        intro l hl
        rcases List.mem_append.1 hl with hl | hl
        · exact hd.2 l hl
        · simp only [List.mem_cons, List.not_mem_nil, or_false] at hl
          subst hl
          simp
      rw [List.flatMap_cons, List.flatMap_cons, e1, e2, ih _ _ hts, secLines]
      simp

theorem afterMarker_hit (name t : List Char) : afterMarker name ('#' :: ' ' :: (name ++ t)) = some t := by
  have h1 : ('#' :: ' ' :: (name ++ t)).dropWhile (fun c => decide (c = '#')) = ' ' :: (name ++ t) := by
    rw [List.dropWhile_cons_of_pos (by decide), List.dropWhile_cons_of_neg (by decide)]
  unfold afterMarker
  simp only [h1]
  rw [if_pos (by simp)]
  simp

theorem afterNumbered_hit (name : List Char) (i : ℕ) : afterNumbered name ('#' :: ' ' :: (name ++ [' ']) ++ reprNat i) = some [] := by
  unfold afterNumbered
  rw [List.cons_append, List.cons_append, afterMarker_hit]
  simp only
  have hd : ∀ c ∈ reprNat i, c.isDigit = true := fun c hc => Nat.isDigit_of_mem_toDigits (by decide) (by decide) hc
  have hne : reprNat i ≠ [] := by
    intro h
    have := Nat.length_toDigits_pos (b := 10) (n := i)
    unfold reprNat at h
    rw [h] at this
    exact absurd this (by decide)
  cases hr : reprNat i with
  | nil => exact absurd hr hne
  | cons c cs =>
    rw [hr] at hd
    simp only
    rw [if_pos (hd c (by simp))]
    congr 1
    exact List.dropWhile_eq_nil_iff.2 hd

theorem afterNumbered_plain (name : List Char) {l : List Char} (h : Plain l) : afterNumbered name l = none := by
  unfold afterNumbered
  rw [afterMarker_plain _ h]

theorem fnPieces_plain (name : List Char) (a b : List (List Char)) (ha : ∀ l ∈ a, Plain l) :
    fnPieces name (a ++ b) = (a ++ (fnPieces name b).1, (fnPieces name b).2) := by
  induction a with
  | nil => rfl
  | cons l a ih =>
    rw [List.cons_append, fnPieces, ih (fun x hx => ha x (by simp [hx])), afterNumbered_plain name (ha l (by simp))]
    rfl

theorem fnPieces_secLines (name : List Char) (i : ℕ) (fs : List FnText) (h : ∀ f ∈ fs, ∀ l ∈ fnKeyLines f, Plain l) :
    fnPieces name (secLines ('#' :: ' ' :: (name ++ [' '])) i fs) = ([], fs.map (fun f => [] :: (fnKeyLines f ++ [[]]))) := by
  induction fs generalizing i with
  | nil => rfl
  | cons f fs ih =>
    have e : ∀ t : List (List Char), fnKeyLines f ++ ([] :: t) = (fnKeyLines f ++ [[]]) ++ t := fun t => by simp
    rw [secLines, fnPieces, e, fnPieces_plain, ih _ (fun g hg => h g (by simp [hg])), afterNumbered_hit]
    · simp
    · intro l hl
      rcases List.mem_append.1 hl with hl | hl
      · exact h f (by simp) l hl
      · simp only [List.mem_cons, List.not_mem_nil, or_false] at hl
        subst hl
        exact fun h => by cases h

/-- Reading the pieces, one after the other. -/
theorem readFns_pieces {P : Python K V} {call : FnRead V → List (Owner K) → Res (Owner K)} (fs' : List (Owner K))
    (fs : List FnText) (done : List (Owner K)) (hlen : done.length + fs.length = fs'.length) (hdone : done = fs'.take done.length)
    (h : ∀ (i : ℕ) (f : FnText), fs[i]? = some f → ∃ r o', FnReadable P f (done.length + i) r ∧ fs'[done.length + i]? = some o' ∧
      call r (fs'.take (done.length + i)) = .ok o') :
    readFns P call done (fs.map (fun f => [] :: (fnKeyLines f ++ [[]]))) = .ok fs' := by
  induction fs generalizing done with
  | nil =>
    rw [List.map_nil, readFns]
    rw [List.length_nil, Nat.add_zero] at hlen
    rw [hlen, List.take_length] at hdone
    rw [hdone]
  | cons f fs ih =>
    obtain ⟨r, o', hr, ho, hcall⟩ := h 0 f rfl
    rw [Nat.add_zero] at hr ho hcall
    have hskip : (skipComments ([] :: (fnKeyLines f ++ [[]]))).2 = fnKeyLines f ++ [[]] := by
      rw [skip_blank]
      unfold fnKeyLines
      rw [List.cons_append]
      exact congrArg Prod.snd (skip_plain 'f' _ _ (by decide) (by decide))
    rw [List.map_cons, readFns, hskip, ← fnWritestr_join, c76_function_roundtrip P f _ r hr]
    simp only
    rw [← hdone] at hcall
    rw [hcall]
    simp only
    have hlt : done.length < fs'.length := by rw [List.length_cons] at hlen; omega
    have hd' : (done ++ [o']).length = done.length + 1 := by simp
    refine ih (done ++ [o']) ?_ ?_ ?_
    · rw [hd']
      rw [List.length_cons] at hlen
      omega
    · rw [hd', List.take_add_one, ho, ← hdone]
      rfl
    · intro i f' hf'
      obtain ⟨r', o'', h1, h2, h3⟩ := h (i + 1) f' (by simpa using hf')
      have e : (done ++ [o']).length + i = done.length + (i + 1) := by omega
      rw [e]
      exact ⟨r', o'', h1, h2, h3⟩

end Verif.Text
