import Verif.Text.PwaSpec

/-!
# Lemmas about the summary of extracted peaks
-/

namespace Verif.Text

open Verif.Py Verif.Parts

open Verif.Pdf (MetaField splitLines)

set_option linter.unusedSectionVars false

variable {K : Type}

theorem bindRes {α β : Type} {r : Res α} {f : α → Res β} {b : β} (h : (r >>= f) = .ok b) : ∃ a, r = .ok a ∧ f a = .ok b := by
  cases r with
  | error e => cases h
  | ok a => exact ⟨a, rfl, h⟩

theorem afterLine_append (marker : List Char) (a b : List (List Char)) (h : marker ∉ a) :
    afterLine marker (a ++ marker :: b) = b := by
  induction a with
  | nil => rw [List.nil_append, afterLine, if_pos rfl]
  | cons l a ih =>
    rw [List.mem_cons, not_or] at h
    rw [List.cons_append, afterLine, if_neg (fun e => h.1 e.symm), ih h.2]

theorem fields_word (w rest : List Char) (h : Word w) : fields (w ++ ' ' :: rest) = w :: fields rest := by
  have sp : isSpace ' ' = true := by decide
  unfold fields
  rw [wordsFrom_word _ _ _ (fun x hx => by simp [h.2 x hx]), List.append_nil, wordsFrom, if_neg (by simp [sp]),
    if_neg (by simpa using h.1)]
  simp

theorem fields_last (w : List Char) (h : Word w) : fields w = [w] := by
  unfold fields
  have := wordsFrom_word (fun c => !isSpace c) [] w (fun x hx => by simp [h.2 x hx]) []
  rw [List.append_nil, List.append_nil] at this
  rw [this, wordsFrom, if_neg (by simpa using h.1)]
  simp

theorem reprNat_ne (n : ℕ) : reprNat n ≠ [] := by
  unfold reprNat
  exact Nat.toDigits_ne_nil

theorem word_reprNat (n : ℕ) : Word (reprNat n) := ⟨reprNat_ne n, fun _ h => reprNat_digit h⟩

theorem reprNat_isDigit {n : ℕ} {c : Char} (h : c ∈ reprNat n) : c.isDigit = true :=
  Nat.isDigit_of_mem_toDigits (by decide) (by decide) h

theorem reprNat_inj {a b : ℕ} (h : reprNat a = reprNat b) : a = b := by
  have := congrArg (fun l => Nat.ofDigitChars 10 l 0) h
  simpa [reprNat, Nat.ofDigitChars_toDigits] using this

theorem word_newline {w : List Char} (h : Word w) : '\n' ∉ w := fun hm => absurd (h.2 _ hm) (by decide)

theorem newline_append {a b : List Char} (ha : '\n' ∉ a) (hb : '\n' ∉ b) : '\n' ∉ a ++ b := by
  rw [List.mem_append, not_or]
  exact ⟨ha, hb⟩

theorem newline_cons {a : Char} {b : List Char} (ha : a ≠ '\n') (hb : '\n' ∉ b) : '\n' ∉ a :: b := by
  rw [List.mem_cons, not_or]
  exact ⟨fun e => ha e.symm, hb⟩

theorem newline_join (ls : List (List Char)) (h : ∀ l ∈ ls, '\n' ∉ l) : '\n' ∉ join [' '] ls := by
  match ls with
  | [] => exact List.not_mem_nil
  | [l] => exact h l (by simp)
  | l :: l' :: ls =>
    rw [join]
    exact newline_append (newline_append (h l (by simp)) (by decide)) (newline_join (l' :: ls) (fun x hx => h x (by simp [hx])))

theorem splitlines_newline (s : List Char) : ∀ l ∈ splitlines s, '\n' ∉ l := by
  have key : ∀ s cur : List Char, '\n' ∉ cur → ∀ l ∈ splitlinesFrom cur s, '\n' ∉ l := by
    intro s cur hc
    induction cur, s using splitlinesFrom.induct with
    | case1 =>
      intro l hl
      cases hl
    | case2 cur hne =>
      intro l hl
      rw [splitlinesFrom, if_neg hne] at hl
      rw [List.mem_singleton.1 hl]
      simpa using hc
    | case3 cur cs ih =>
      intro l hl
      rw [splitlinesFrom] at hl
      rcases List.mem_cons.1 hl with rfl | h
      · simpa using hc
      · exact ih List.not_mem_nil l h
    | case4 cur c cs hno hb ih =>
      intro l hl
      rw [splitlinesFrom.eq_def] at hl
      split at hl
      · rename_i he; cases he
      · rename_i he
        cases he
        exact (hno _ rfl rfl).elim
      · rename_i he
        cases he
        rw [if_pos hb] at hl
        rcases List.mem_cons.1 hl with rfl | h
        · simpa using hc
        · exact ih List.not_mem_nil l h
    | case5 cur c cs hno hb ih =>
      intro l hl
      have hb' : isBreak c = false := by simpa using hb
      rw [splitlinesFrom_char cur cs hb'] at hl
      refine ih (newline_cons ?_ hc) l hl
      rintro rfl
      exact absurd hb' (by decide)
  exact key s [] List.not_mem_nil

/-! ### Kinds of lines -/

/-- A line is empty, starts with one of the texts, starts with a digit, or ends with a digit. -/
def KindOf (lits : List (List Char)) (l : List Char) : Prop :=
  l = [] ∨ (∃ lit ∈ lits, ∃ x, l = lit ++ x) ∨ (∃ c x, l = c :: x ∧ c.isDigit = true) ∨ ∃ x c, l = x ++ [c] ∧ c.isDigit = true

/-- A heading is none of these. -/
def Heading (lits : List (List Char)) (m : List Char) : Bool :=
  lits.all (fun lit => !lit.isPrefixOf m) && decide (m ≠ []) && !(m.headD 'x').isDigit && !(m.getLastD 'x').isDigit

theorem heading_ne {lits : List (List Char)} {m l : List Char} (hm : Heading lits m = true) (hl : KindOf lits l) : l ≠ m := by
  unfold Heading at hm
  simp only [Bool.and_eq_true, List.all_eq_true, Bool.not_eq_true', decide_eq_true_eq] at hm
  obtain ⟨⟨⟨h1, h2⟩, h3⟩, h4⟩ := hm
  rintro rfl
  rcases hl with h | ⟨lit, hlit, x, h⟩ | ⟨c, x, h, hd⟩ | ⟨x, c, h, hd⟩
  · exact h2 h
  · have := h1 lit hlit
    rw [h] at this
    have h5 : lit.isPrefixOf (lit ++ x) = true := List.isPrefixOf_iff_prefix.2 (List.prefix_append _ _)
    rw [this] at h5
    cases h5
  · rw [h] at h3
    simp only [List.headD_cons] at h3
    rw [hd] at h3
    cases h3
  · rw [h] at h4
    simp only [List.getLastD_concat] at h4
    rw [hd] at h4
    cases h4

theorem heading_notMem {lits : List (List Char)} {m : List Char} (hm : Heading lits m = true) {ls : List (List Char)}
    (hl : ∀ l ∈ ls, KindOf lits l) : m ∉ ls := fun h => heading_ne hm (hl m h) rfl

theorem kind_lit {lits : List (List Char)} (lit x : List Char) (h : lit ∈ lits) : KindOf lits (lit ++ x) :=
  .inr (.inl ⟨lit, h, x, rfl⟩)

theorem kind_exact {lits : List (List Char)} (lit : List Char) (h : lit ∈ lits) : KindOf lits lit :=
  .inr (.inl ⟨lit, h, [], (List.append_nil _).symm⟩)

theorem kind_mono {a b : List (List Char)} {l : List Char} (h : KindOf a l) (hab : ∀ x ∈ a, x ∈ b) : KindOf b l := by
  rcases h with h | ⟨lit, hlit, x, h⟩ | h | h
  · exact .inl h
  · exact .inr (.inl ⟨lit, hab lit hlit, x, h⟩)
  · exact .inr (.inr (.inl h))
  · exact .inr (.inr (.inr h))

/-! ### The parts of the summary -/

theorem pwaBaseText_ok {W : Pwa K} {all : List (Owner K)} {f : Owner K} {t : List Char} (h : pwaBaseText W all f = .ok t) :
    (W.baseOf f.id = none ∧ t = []) ∨
    ∃ b j o, W.baseOf f.id = some b ∧ all[j]? = some o ∧ o.id = b ∧ t = "(base=".toList ++ reprNat j ++ ")".toList := by
  unfold pwaBaseText at h
  split at h
  · rename_i hb
    cases h
    exact .inl ⟨hb, rfl⟩
  · rename_i b hb
    split at h
    · cases h
    · rename_i j hj
      cases h
      obtain ⟨o, ho, e⟩ := ownerIndex_some hj
      exact .inr ⟨b, j, o, hb, ho, e, rfl⟩

theorem word_base (j : ℕ) : Word ("(base=".toList ++ reprNat j ++ ")".toList) := by
  refine ⟨by simp, ?_⟩
  intro c hc
  rw [List.mem_append, List.mem_append] at hc
  rcases hc with (hc | hc) | hc
  · revert c; decide
  · exact reprNat_digit hc
  · revert c; decide

/-- The lines about functions: one for each, starting with its position. -/
theorem pwaFnLines_ok {W : Pwa K} {all fs : List (Owner K)} {i : ℕ} {ls : List (List Char)}
    (h : pwaFnLines W all i fs = .ok ls) :
    ls.length = fs.length ∧ ∀ (k : ℕ) o, fs[k]? = some o → ∃ b, pwaBaseText W all o = .ok b ∧
      ls[k]? = some (reprNat (i + k) ++ ' ' :: (W.moduleOf o.id ++ ' ' :: b)) := by
  induction fs generalizing i ls with
  | nil =>
    cases h
    exact ⟨rfl, fun k o hk => by simp at hk⟩
  | cons f fs ih =>
    rw [pwaFnLines] at h
    obtain ⟨b, hb, h⟩ := bindRes h
    obtain ⟨ls', h', h⟩ := bindRes h
    cases h
    obtain ⟨h1, h2⟩ := ih h'
    refine ⟨by simp [h1], ?_⟩
    intro k o hk
    cases k with
    | zero =>
      simp only [List.getElem?_cons_zero, Option.some.injEq] at hk
      subst hk
      exact ⟨b, hb, rfl⟩
    | succ k =>
      rw [List.getElem?_cons_succ] at hk
      obtain ⟨b', e1, e2⟩ := h2 k o hk
      refine ⟨b', e1, ?_⟩
      rw [List.getElem?_cons_succ, e2, Nat.add_right_comm, Nat.add_assoc]

theorem pwaFnLines_line {W : Pwa K} {all fs : List (Owner K)} {i : ℕ} {ls : List (List Char)}
    (h : pwaFnLines W all i fs = .ok ls) (hm : ∀ f, Word (W.moduleOf f)) :
    ∀ l ∈ ls, '\n' ∉ l ∧ l ≠ [] ∧ ∀ lits, KindOf lits l := by
  intro l hl
  obtain ⟨k, hk⟩ := List.getElem?_of_mem hl
  obtain ⟨h1, h2⟩ := pwaFnLines_ok h
  have hlt : k < fs.length := by
    rw [← h1]
    exact (List.getElem?_eq_some_iff.1 hk).1
  obtain ⟨b, hb, e⟩ := h2 k fs[k] (List.getElem?_eq_getElem hlt)
  rw [hk] at e
  cases e
  have hbn : '\n' ∉ b := by
    rcases pwaBaseText_ok hb with ⟨_, rfl⟩ | ⟨_, j, _, _, _, _, rfl⟩
    · exact List.not_mem_nil
    · exact word_newline (word_base j)
  refine ⟨?_, ?_, ?_⟩
  · exact newline_append (word_newline (word_reprNat _)) (newline_cons (by decide)
      (newline_append (word_newline (hm _)) (newline_cons (by decide) hbn)))
  · simp
  · intro lits
    cases hr : reprNat (i + k) with
    | nil => exact absurd hr (reprNat_ne _)
    | cons c x =>
      refine .inr (.inr (.inl ⟨c, _, rfl, ?_⟩))
      exact reprNat_isDigit (n := i + k) (by rw [hr]; simp)

theorem pwaBaseline_line {W : Pwa K} {bf : List (Owner K)} {b : Option (Part K)} {ls : List (List Char)}
    (h : pwaBaseline W bf b = .ok ls) (hs : ∀ x, Word (W.str x))
    (hl : ∀ q, b = some q → ∀ e ∈ q.owner.dict, '\n' ∉ e.1.toList) :
    ∀ l ∈ ls, '\n' ∉ l ∧ KindOf ["None".toList, "# ".toList, "(no parameters)".toList] l := by
  have hdig : ∀ (x : List Char) (i : ℕ) (lits : List (List Char)), KindOf lits (x ++ reprNat i) := by
    intro x i lits
    have hne := reprNat_ne i
    refine .inr (.inr (.inr ⟨x ++ (reprNat i).dropLast, (reprNat i).getLast hne, ?_, reprNat_isDigit (n := i) (List.getLast_mem hne)⟩))
    rw [List.append_assoc, List.dropLast_append_getLast]
  unfold pwaBaseline at h
  split at h
  · cases h
    intro l hl
    rw [List.mem_singleton.1 hl]
    exact ⟨by decide, kind_exact _ (by simp)⟩
  · rename_i q
    split at h
    · cases h
    · rename_i i hi
      split at h
      · cases h
        intro l hl'
        rcases List.mem_cons.1 hl' with rfl | hl'
        · refine ⟨newline_append (by decide) (newline_join _ ?_), kind_lit _ _ (by simp)⟩
          intro t ht
          obtain ⟨e, he, rfl⟩ := List.mem_map.1 ht
          exact hl q rfl e ((List.perm_insertionSort _ _).mem_iff.1 he)
        · rw [List.mem_singleton.1 hl']
          refine ⟨newline_append (newline_append (newline_join _ ?_) (by decide)) (word_newline (word_reprNat _)), hdig _ _ _⟩
          intro t ht
          obtain ⟨x, _, rfl⟩ := List.mem_map.1 ht
          exact word_newline (hs x)
      · cases h
        intro l hl'
        rw [List.mem_singleton.1 hl']
        refine ⟨newline_append (by decide) (word_newline (word_reprNat _)), hdig _ _ _⟩

theorem pwaPar_ok {o : Owner K} {q : List K} {name : String} {v : K} (h : pwaPar o q name = .ok v) : Named o q name v := by
  unfold pwaPar at h
  split at h
  · cases h
  · rename_i i hi
    split at h
    · cases h
    · rename_i w hw
      cases h
      exact ⟨i, hi, hw⟩

/-- A peak's line. -/
theorem pwaPeak_ok {W : Pwa K} {pf : List (Owner K)} {p : Part K} {l : List Char} (h : pwaPeak W pf p = .ok l) :
    ∃ q a b c i o, p.owner.transform p.pars (some "internal") (some "pwa") = .ok q ∧ Named p.owner q "position" a ∧
      Named p.owner q "width" b ∧ Named p.owner q "area" c ∧ ownerIndex pf p.owner.id = some i ∧ pf[i]? = some o ∧ o.id = p.owner.id ∧
      l = W.str a ++ ' ' :: (W.str b ++ ' ' :: (W.str c ++ ' ' :: ('#' :: ' ' :: reprNat i))) := by
  unfold pwaPeak at h
  obtain ⟨q, hq, h⟩ := bindRes h
  obtain ⟨a, ha, h⟩ := bindRes h
  obtain ⟨b, hb, h⟩ := bindRes h
  obtain ⟨c, hc, h⟩ := bindRes h
  split at h
  · cases h
  · rename_i i hi
    cases h
    obtain ⟨o, ho, e⟩ := ownerIndex_some hi
    exact ⟨q, a, b, c, i, o, hq, pwaPar_ok ha, pwaPar_ok hb, pwaPar_ok hc, hi, ho, e, rfl⟩

theorem word_hash : Word ['#'] := ⟨by simp, by intro c hc; revert c; decide⟩

theorem readPwaRow_line {W : Pwa K} {float : List Char → Option K} (hs : ∀ x, Word (W.str x)) (hf : ∀ x, float (W.str x) = some x)
    (a b c : K) (i : ℕ) :
    readPwaRow float (W.str a ++ ' ' :: (W.str b ++ ' ' :: (W.str c ++ ' ' :: ('#' :: ' ' :: reprNat i)))) = some (a, b, c, reprNat i) := by
  have e : fields (W.str a ++ ' ' :: (W.str b ++ ' ' :: (W.str c ++ ' ' :: ('#' :: ' ' :: reprNat i)))) =
      [W.str a, W.str b, W.str c, ['#'], reprNat i] := by
    rw [fields_word _ _ (hs a), fields_word _ _ (hs b), fields_word _ _ (hs c)]
    have := fields_word ['#'] (reprNat i) word_hash
    simp only [List.singleton_append] at this
    rw [this, fields_last _ (word_reprNat i)]
  unfold readPwaRow
  rw [e]
  simp only [if_true]
  rw [hf, hf, hf]

theorem pwaPeaks_ok {W : Pwa K} {pf : List (Owner K)} {ps : List (Part K)} {ls : List (List Char)}
    (h : pwaPeaks W pf ps = .ok ls) : List.Forall₂ (fun p l => pwaPeak W pf p = .ok l) ps ls := by
  induction ps generalizing ls with
  | nil => cases h; exact .nil
  | cons p ps ih =>
    rw [pwaPeaks] at h
    obtain ⟨l, hl, h⟩ := bindRes h
    obtain ⟨ls', h', h⟩ := bindRes h
    cases h
    exact .cons hl (ih h')

theorem peakLine_plain {W : Pwa K} {pf : List (Owner K)} {p : Part K} {l : List Char} (h : pwaPeak W pf p = .ok l)
    (hs : ∀ x, Word (W.str x)) : '\n' ∉ l ∧ l ≠ [] := by
  obtain ⟨q, a, b, c, i, o, _, _, _, _, _, _, _, rfl⟩ := pwaPeak_ok h
  refine ⟨?_, by simp⟩
  exact newline_append (word_newline (hs a)) (newline_cons (by decide) (newline_append (word_newline (hs b))
    (newline_cons (by decide) (newline_append (word_newline (hs c)) (newline_cons (by decide) (newline_cons (by decide)
    (newline_cons (by decide) (word_newline (word_reprNat i)))))))))

/-- The lines of the summary, taken apart. -/
theorem pwaLines_ok {W : Pwa K} {safe : List ℕ → List (Owner K)} {p : Px K} {comments : List Char} {ls : List (List Char)}
    (h : pwaLines W safe p comments = .ok ls) :
    ∃ m c e quality nbl ids bfl bll pfl pl, p.extracted = some m ∧ p.cres = some c ∧ p.edy = some e ∧ W.quality = .ok quality ∧
      baselineFree p.baseline = .ok nbl ∧ allPf p = .ok ids ∧ pwaFnLines W (safe (allBf p)) 0 (safe (allBf p)) = .ok bfl ∧
      pwaBaseline W (safe (allBf p)) m.baseline = .ok bll ∧ pwaFnLines W (safe ids) 0 (safe ids) = .ok pfl ∧
      pwaPeaks W (safe ids) m.model = .ok pl ∧
      ls = pwaHead W comments ++ pwaModel W p m c e quality nbl ++ ["## Baseline Functions".toList, "# Index Type".toList] ++ bfl ++
      [[], "## Baseline".toList, "# Parameters of baseline, followed by comment which".toList,
        "# gives the index of corresponding Baseline Function.".toList] ++ bll ++
      [[], "## Peak Functions".toList, "# Index Type".toList] ++ pfl ++
      [[], "## Extracted Peaks".toList, "# Parameters are given in the natural units of the data,".toList,
        "# where width is measured as full-width at half maximum.".toList,
        "# Each line is followed by a comment which gives the index".toList,
        "# of the corresponding Peak Function.".toList, "#L position fwhm area".toList] ++ pl := by
  unfold pwaLines at h
  split at h
  · cases h
  rename_i m hm
  obtain ⟨c, hc, h⟩ := bindRes h
  obtain ⟨e, he, h⟩ := bindRes h
  obtain ⟨quality, hq, h⟩ := bindRes h
  obtain ⟨nbl, hn, h⟩ := bindRes h
  obtain ⟨ids, hi, h⟩ := bindRes h
  obtain ⟨bfl, hbf, h⟩ := bindRes h
  obtain ⟨bll, hbl, h⟩ := bindRes h
  obtain ⟨pfl, hpf, h⟩ := bindRes h
  obtain ⟨pl, hpl, h⟩ := bindRes h
  have hc' : p.cres = some c := by
    cases hx : p.cres with
    | none => rw [hx] at hc; cases hc
    | some c' => rw [hx] at hc; cases hc; rfl
  have he' : p.edy = some e := by
    cases hx : p.edy with
    | none => rw [hx] at he; cases he
    | some c' => rw [hx] at he; cases he; rfl
  exact ⟨m, c, e, quality, nbl, ids, bfl, bll, pfl, pl, hm, hc', he', hq, hn, hi, hbf, hbl, hpf, hpl, (Except.ok.inj h).symm⟩

/-- What the lines of header and metadata start with. -/
def headLits0 : List (List Char) :=
  ["Summary written: ", "produced by ", "diffpy.srmise version ", "##### User comments", "# ", "##### PDF Peak Extraction Summary",
    "## PDF metadata", "filename", "nyquist", "qmax", "scale", "supersample"].map String.toList

/-- What the lines before the functions start with. -/
def headLits : List (List Char) :=
  headLits0 ++ ["## Peak extraction metadata", "Range=", "cres=",
    "effective_dy=", "## Model Quality", "ModelEvaluator=", "## Baseline", "None", "(no parameters)"].map String.toList

/-- What the lines before the functions of the baseline start with. -/
def headLits1 : List (List Char) :=
  headLits0 ++ ["## Peak extraction metadata", "Range=", "cres=", "effective_dy=", "## Model Quality", "ModelEvaluator="].map String.toList

theorem pwaHead_line {W : Pwa K} {p : Px K} (hW : Printable W p) (comments : List Char) :
    ∀ l ∈ pwaHead W comments, '\n' ∉ l ∧ KindOf headLits0 l := by
  have a : ∀ f : MetaField, '\n' ∉ f.name ∧ ∃ lit ∈ headLits0, lit <+: f.name := by
    intro f
    cases f <;> refine ⟨by decide, ?_⟩
    · exact ⟨"filename".toList, by decide, ⟨[], rfl⟩⟩
    · exact ⟨"nyquist".toList, by decide, ⟨[], rfl⟩⟩
    · exact ⟨"qmax".toList, by decide, ⟨[], rfl⟩⟩
    · exact ⟨"qmax".toList, by decide, ⟨"_reportedbypdf".toList, rfl⟩⟩
    · exact ⟨"qmax".toList, by decide, ⟨"_fromdata".toList, rfl⟩⟩
    · exact ⟨"scale".toList, by decide, ⟨[], rfl⟩⟩
    · exact ⟨"supersample".toList, by decide, ⟨[], rfl⟩⟩
  intro l hl
  unfold pwaHead at hl
  simp only [List.mem_append, List.mem_cons, List.not_mem_nil, or_false, List.mem_map] at hl
  rcases hl with ((((rfl | rfl | rfl | rfl) | ⟨c, hc, rfl⟩) | rfl | rfl | rfl) | ⟨f, -, rfl⟩) | rfl
  · exact ⟨newline_append (by decide) hW.time, kind_lit _ _ (by decide)⟩
  · exact ⟨newline_append (by decide) hW.user, kind_lit _ _ (by decide)⟩
  · exact ⟨newline_append (by decide) hW.version, kind_lit _ _ (by decide)⟩
  · exact ⟨by decide, kind_exact _ (by decide)⟩
  · exact ⟨newline_append (by decide) (splitlines_newline comments c hc), kind_lit _ _ (by decide)⟩
  · exact ⟨by decide, kind_exact _ (by decide)⟩
  · exact ⟨by decide, .inr (.inl ⟨"# ".toList, by decide, _, rfl⟩)⟩
  · exact ⟨by decide, kind_exact _ (by decide)⟩
  · obtain ⟨h1, lit, h2, x, h3⟩ := a f
    refine ⟨newline_append h1 (newline_cons (by decide) (hW.pdf f)), .inr (.inl ⟨lit, h2, x ++ '=' :: W.pdf f, ?_⟩)⟩
    rw [← h3, List.append_assoc]
  · exact ⟨List.not_mem_nil, .inl rfl⟩

theorem pwaModel_line {W : Pwa K} {p : Px K} (hW : Printable W p) (m : Mc K) (c : K) (e : List K) {quality : List Char}
    (hq : W.quality = .ok quality) (nbl : ℕ) : ∀ l ∈ pwaModel W p m c e quality nbl, '\n' ∉ l ∧ KindOf headLits1 l := by
  intro l hl
  have hn : ∀ n, '\n' ∉ reprNat n := fun n => word_newline (word_reprNat n)
  unfold pwaModel at hl
  simp only [List.mem_cons, List.not_mem_nil, or_false] at hl
  rcases hl with rfl | rfl | rfl | rfl | rfl | rfl | rfl | rfl | rfl | rfl | rfl | rfl
  · exact ⟨by decide, kind_exact _ (by decide)⟩
  · exact ⟨newline_append (by decide) hW.rng, kind_lit _ _ (by decide)⟩
  · exact ⟨newline_append (by decide) (word_newline (hW.fmt c)), kind_lit _ _ (by decide)⟩
  · refine ⟨newline_append (newline_append (by decide) (word_newline (hW.str _))) (by decide), ?_⟩
    rw [List.append_assoc]
    exact kind_lit _ _ (by decide)
  · exact ⟨List.not_mem_nil, .inl rfl⟩
  · exact ⟨by decide, kind_exact _ (by decide)⟩
  · exact ⟨newline_append (by decide) (hW.quality _ hq), .inr (.inl ⟨"# ".toList, by decide, _, rfl⟩)⟩
  · exact ⟨newline_append (by decide) (hn _), .inr (.inl ⟨"# ".toList, by decide, _, rfl⟩)⟩
  · exact ⟨newline_append (by decide) (hn _), .inr (.inl ⟨"# ".toList, by decide, _, rfl⟩)⟩
  · exact ⟨newline_append (by decide) (hn _), .inr (.inl ⟨"# ".toList, by decide, _, rfl⟩)⟩
  · refine ⟨newline_append (by decide) ?_, kind_lit _ _ (by decide)⟩
    cases hm : p.method with
    | none => decide
    | some t => exact hW.method t hm
  · exact ⟨List.not_mem_nil, .inl rfl⟩

/-- The lines before the list of peak functions. -/
def pwaPre (W : Pwa K) (p : Px K) (comments : List Char) (m : Mc K) (c : K) (e : List K) (quality : List Char) (nbl : ℕ)
    (bfl bll : List (List Char)) : List (List Char) :=
  pwaHead W comments ++ (pwaModel W p m c e quality nbl ++ (["## Baseline Functions".toList, "# Index Type".toList] ++ (bfl ++
    ([[], "## Baseline".toList, "# Parameters of baseline, followed by comment which".toList,
      "# gives the index of corresponding Baseline Function.".toList] ++ (bll ++ [[]])))))

/-- The lines before the table of peaks. -/
def pwaIntro : List (List Char) :=
  ["## Extracted Peaks".toList, "# Parameters are given in the natural units of the data,".toList,
    "# where width is measured as full-width at half maximum.".toList,
    "# Each line is followed by a comment which gives the index".toList,
    "# of the corresponding Peak Function.".toList]

theorem pwaPre_line {W : Pwa K} {safe : List ℕ → List (Owner K)} {p : Px K} (hW : Printable W p) (comments : List Char) {m : Mc K} (c : K) (e : List K)
    {quality : List Char} (nbl : ℕ) {bfl bll : List (List Char)} (hm : p.extracted = some m) (hq : W.quality = .ok quality)
    (hbf : pwaFnLines W (safe (allBf p)) 0 (safe (allBf p)) = .ok bfl) (hbl : pwaBaseline W (safe (allBf p)) m.baseline = .ok bll) :
    ∀ l ∈ pwaPre W p comments m c e quality nbl bfl bll, '\n' ∉ l ∧ KindOf headLits l := by
  intro l hl
  unfold pwaPre at hl
  rcases List.mem_append.1 hl with hl | hl
  · exact ⟨(pwaHead_line hW comments l hl).1, kind_mono (pwaHead_line hW comments l hl).2 (by decide)⟩
  rcases List.mem_append.1 hl with hl | hl
  · exact ⟨(pwaModel_line hW m c e hq nbl l hl).1, kind_mono (pwaModel_line hW m c e hq nbl l hl).2 (by decide)⟩
  rcases List.mem_append.1 hl with hl | hl
  · rcases List.mem_cons.1 hl with rfl | hl
    · exact ⟨by decide, .inr (.inl ⟨"## Baseline".toList, by decide, " Functions".toList, rfl⟩)⟩
    · rw [List.mem_singleton.1 hl]
      exact ⟨by decide, .inr (.inl ⟨"# ".toList, by decide, "Index Type".toList, rfl⟩)⟩
  rcases List.mem_append.1 hl with hl | hl
  · have a3 := pwaFnLines_line hbf hW.moduleOf
    exact ⟨(a3 l hl).1, (a3 l hl).2.2 _⟩
  rcases List.mem_append.1 hl with hl | hl
  · simp only [List.mem_cons, List.not_mem_nil, or_false] at hl
    rcases hl with rfl | rfl | rfl | rfl
    · exact ⟨List.not_mem_nil, .inl rfl⟩
    · exact ⟨by decide, kind_exact _ (by decide)⟩
    · exact ⟨by decide, .inr (.inl ⟨"# ".toList, by decide, _, rfl⟩)⟩
    · exact ⟨by decide, .inr (.inl ⟨"# ".toList, by decide, _, rfl⟩)⟩
  rcases List.mem_append.1 hl with hl | hl
  · have a4 := pwaBaseline_line hbl hW.str (hW.labels m · hm)
    exact ⟨(a4 l hl).1, kind_mono (a4 l hl).2 (by decide)⟩
  · rw [List.mem_singleton.1 hl]
    exact ⟨List.not_mem_nil, .inl rfl⟩

theorem pwaIntro_line : ∀ l ∈ pwaIntro, '\n' ∉ l ∧ KindOf ("## Extracted Peaks".toList :: "## Peak Functions".toList :: headLits) l := by
  intro l hl
  unfold pwaIntro at hl
  simp only [List.mem_cons, List.not_mem_nil, or_false] at hl
  rcases hl with rfl | rfl | rfl | rfl | rfl
  · exact ⟨by decide, kind_exact _ (by decide)⟩
  · exact ⟨by decide, .inr (.inl ⟨"# ".toList, by decide, _, rfl⟩)⟩
  · exact ⟨by decide, .inr (.inl ⟨"# ".toList, by decide, _, rfl⟩)⟩
  · exact ⟨by decide, .inr (.inl ⟨"# ".toList, by decide, _, rfl⟩)⟩
  · exact ⟨by decide, .inr (.inl ⟨"# ".toList, by decide, _, rfl⟩)⟩

theorem regroup {α : Type} (a b x c y d z e t f : List α) (n : α) :
    a ++ b ++ x ++ c ++ y ++ d ++ (n :: z) ++ e ++ (n :: t) ++ f =
      (a ++ (b ++ (x ++ (c ++ (y ++ (d ++ [n])))))) ++ (z ++ (e ++ n :: (t ++ f))) := by
  simp

/-- A summary is its lines; before the list of functions and before the table there is no line with their headings. -/
theorem summary_lines {W : Pwa K} {safe : List ℕ → List (Owner K)} {p : Px K} {comments text : List Char} (hW : Printable W p)
    (h : writepwastr W safe p comments = .ok text) :
    ∃ m ids c e quality nbl bfl bll pfl pl, p.extracted = some m ∧ allPf p = .ok ids ∧ baselineFree p.baseline = .ok nbl ∧
      pwaFnLines W (safe ids) 0 (safe ids) = .ok pfl ∧ pwaPeaks W (safe ids) m.model = .ok pl ∧
      splitLines text = pwaPre W p comments m c e quality nbl bfl bll ++ "## Peak Functions".toList :: "# Index Type".toList ::
        (pfl ++ [] :: (pwaIntro ++ "#L position fwhm area".toList :: (pl ++ [[]]))) ∧
      "## Peak Functions".toList ∉ pwaPre W p comments m c e quality nbl bfl bll ∧
      "#L position fwhm area".toList ∉ pwaPre W p comments m c e quality nbl bfl bll ++ "## Peak Functions".toList ::
        "# Index Type".toList :: (pfl ++ [] :: pwaIntro) ∧
      (∀ l ∈ pwaPre W p comments m c e quality nbl bfl bll, KindOf headLits l) ∧ W.quality = .ok quality ∧
      pwaFnLines W (safe (allBf p)) 0 (safe (allBf p)) = .ok bfl ∧ pwaBaseline W (safe (allBf p)) m.baseline = .ok bll := by
  unfold writepwastr at h
  obtain ⟨ls, hls, h⟩ := bindRes h
  obtain ⟨m, c, e, quality, nbl, ids, bfl, bll, pfl, pl, hm, hc, he, hq, hn, hi, hbf, hbl, hpf, hpl, hls'⟩ := pwaLines_ok hls
  have ht := (Except.ok.inj h).symm
  have hpre := pwaPre_line hW comments c e nbl hm hq hbf hbl
  have a5 := pwaFnLines_line hpf hW.moduleOf
  have a6 : ∀ l ∈ pl, '\n' ∉ l := by
    intro l hl
    have hall := pwaPeaks_ok hpl
    obtain ⟨k, hk, e⟩ := List.getElem_of_mem hl
    have hk' : k < m.model.length := by rw [hall.length_eq]; exact hk
    have := hall.get hk' hk
    simp only [List.get_eq_getElem] at this
    rw [e] at this
    exact (peakLine_plain this hW.str).1
  have hls2 : ls = pwaPre W p comments m c e quality nbl bfl bll ++ (["## Peak Functions".toList, "# Index Type".toList] ++
        (pfl ++ [] :: ((pwaIntro ++ ["#L position fwhm area".toList]) ++ pl))) := by
    rw [hls']
    exact regroup _ _ _ _ _ _ _ _ _ _ _
  refine ⟨m, ids, c, e, quality, nbl, bfl, bll, pfl, pl, hm, hi, hn, hpf, hpl, ?_,
    heading_notMem (by decide) (fun l hl => (hpre l hl).2), ?_, (fun l hl => (hpre l hl).2), hq, hbf, hbl⟩
  · rw [ht, splitLines_text ls ?_ ?_, hls2]
    · generalize pwaPre W p comments m c e quality nbl bfl bll = A
      generalize pwaIntro = B
      simp only [List.append_assoc, List.cons_append, List.nil_append]
    · rw [hls2]
      intro l hl
      rcases List.mem_append.1 hl with hl | hl
      · exact (hpre l hl).1
      rcases List.mem_append.1 hl with hl | hl
      · rcases List.mem_cons.1 hl with rfl | hl
        · decide
        · rw [List.mem_singleton.1 hl]; decide
      rcases List.mem_append.1 hl with hl | hl
      · exact (a5 l hl).1
      rcases List.mem_cons.1 hl with rfl | hl
      · exact List.not_mem_nil
      rcases List.mem_append.1 hl with hl | hl
      · rcases List.mem_append.1 hl with hl | hl
        · exact (pwaIntro_line l hl).1
        · rw [List.mem_singleton.1 hl]; decide
      · exact a6 l hl
    · rw [hls2]
      intro h0
      exact absurd (List.append_eq_nil_iff.1 (List.append_eq_nil_iff.1 h0).2).1 (List.cons_ne_nil _ _)
  · apply heading_notMem (lits := "## Extracted Peaks".toList :: "## Peak Functions".toList :: headLits) (by decide)
    intro l hl
    rcases List.mem_append.1 hl with hl | hl
    · exact kind_mono (hpre l hl).2 (fun x hx => List.mem_cons_of_mem _ (List.mem_cons_of_mem _ hx))
    rcases List.mem_cons.1 hl with rfl | hl
    · exact kind_exact _ (List.mem_cons_of_mem _ List.mem_cons_self)
    rcases List.mem_cons.1 hl with rfl | hl
    · exact .inr (.inl ⟨"# ".toList, by decide, "Index Type".toList, rfl⟩)
    rcases List.mem_append.1 hl with hl | hl
    · exact (a5 l hl).2.2 _
    rcases List.mem_cons.1 hl with rfl | hl
    · exact .inl rfl
    · exact (pwaIntro_line l hl).2

end Verif.Text
