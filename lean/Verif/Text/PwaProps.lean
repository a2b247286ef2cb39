import Verif.Text.PwaLemmas
import Verif.Text.ExtractionProps

/-!
# C89: the summary of the extracted peaks
-/

namespace Verif.Text

open Verif.Py Verif.Parts

open Verif.Pdf (MetaField splitLines)

set_option linter.unusedSectionVars false

variable {K : Type}

theorem takeWhile_append {α : Type} (f : α → Bool) (a b : List α) (x : α) (ha : ∀ y ∈ a, f y = true) (hx : f x = false) :
    (a ++ x :: b).takeWhile f = a := by
  induction a with
  | nil => rw [List.nil_append, List.takeWhile_cons_of_neg (by simp [hx])]
  | cons y a ih =>
    rw [List.cons_append, List.takeWhile_cons_of_pos (ha y (by simp)), ih (fun z hz => ha z (by simp [hz]))]

/-- The functions in a summary, read. -/
theorem functionsIn_line {W : Pwa K} {safe : List ℕ → List (Owner K)} {p : Px K} {comments text : List Char} {ids : List ℕ}
    (hW : Printable W p) (h : writepwastr W safe p comments = .ok text) (hi : allPf p = .ok ids) (n : ℕ) (o : Owner K)
    (hn : (safe ids)[n]? = some o) : ∃ b, pwaBaseText W (safe ids) o = .ok b ∧
      (functionsIn text)[n]? = some (reprNat n :: W.moduleOf o.id :: fields b) := by
  obtain ⟨m, ids', c, e, quality, nbl, bfl, bll, pfl, pl, hm, hi', _, hpf, hpl, ht, hno, _, _⟩ := summary_lines hW h
  rw [hi] at hi'
  cases hi'
  have hl := pwaFnLines_line hpf hW.moduleOf
  obtain ⟨h1, h2⟩ := pwaFnLines_ok hpf
  obtain ⟨b, hb, e1⟩ := h2 n o hn
  refine ⟨b, hb, ?_⟩
  unfold functionsIn
  rw [ht, afterLine_append _ _ _ hno, List.drop_succ_cons, List.drop_zero,
    takeWhile_append _ _ _ _ (fun l hl' => by simpa using (hl l hl').2.1) (by simp), List.getElem?_map, e1]
  simp only [Option.map_some, Nat.zero_add]
  rw [fields_word _ _ (word_reprNat n), fields_word _ _ (hW.moduleOf _)]

theorem rows_read {W : Pwa K} {float : List Char → Option K} (hs : ∀ x, Word (W.str x)) (hf : ∀ x, float (W.str x) = some x)
    (pf : List (Owner K)) {ps : List (Part K)} {ls : List (List Char)} (h : List.Forall₂ (fun p l => pwaPeak W pf p = .ok l) ps ls) :
    ∃ rows, (ls.filter (fun l => decide (l ≠ []))).mapM (readPwaRow float) = some rows ∧
      List.Forall₂ (fun p row => (∃ q, p.owner.transform p.pars (some "internal") (some "pwa") = .ok q ∧
        Named p.owner q "position" row.1 ∧ Named p.owner q "width" row.2.1 ∧ Named p.owner q "area" row.2.2.1) ∧
        ∃ n, row.2.2.2 = reprNat n ∧ ownerIndex pf p.owner.id = some n) ps rows := by
  induction h with
  | nil => exact ⟨[], rfl, .nil⟩
  | @cons p l ps ls hp _ ih =>
    obtain ⟨rows, h1, h2⟩ := ih
    have hne := (peakLine_plain hp hs).2
    obtain ⟨q, a, b, c, i, o, e1, e2, e3, e4, e5, e6, e7, rfl⟩ := pwaPeak_ok hp
    refine ⟨(a, b, c, reprNat i) :: rows, ?_, .cons ⟨⟨q, e1, e2, e3, e4⟩, i, rfl, e5⟩ h2⟩
    rw [List.filter_cons_of_pos (by simp), List.mapM_cons, readPwaRow_line hs hf, h1]
    rfl

theorem table_read {W : Pwa K} {safe : List ℕ → List (Owner K)} {p : Px K} {comments text : List Char}
    {float : List Char → Option K} (hf : ∀ x, float (W.str x) = some x) (hW : Printable W p)
    (h : writepwastr W safe p comments = .ok text) :
    ∃ m ids rows, p.extracted = some m ∧ allPf p = .ok ids ∧ readPwa float text = some rows ∧
      List.Forall₂ (fun p row => (∃ q, p.owner.transform p.pars (some "internal") (some "pwa") = .ok q ∧
        Named p.owner q "position" row.1 ∧ Named p.owner q "width" row.2.1 ∧ Named p.owner q "area" row.2.2.1) ∧
        ∃ n, row.2.2.2 = reprNat n ∧ ownerIndex (safe ids) p.owner.id = some n) m.model rows := by
  obtain ⟨m, ids, c, e, quality, nbl, bfl, bll, pfl, pl, hm, hi, _, hpf, hpl, ht, hno, hno2, _⟩ := summary_lines hW h
  obtain ⟨rows, h1, h2⟩ := rows_read hW.str hf (safe ids) (pwaPeaks_ok hpl)
  refine ⟨m, ids, rows, hm, hi, ?_, h2⟩
  unfold readPwa
  have e : splitLines text = (pwaPre W p comments m c e quality nbl bfl bll ++ "## Peak Functions".toList ::
        "# Index Type".toList :: (pfl ++ [] :: pwaIntro)) ++ "#L position fwhm area".toList :: (pl ++ [[]]) := by
    rw [ht]
    generalize pwaPre W p comments m c e quality nbl bfl bll = A
    generalize pwaIntro = B
    simp only [List.append_assoc, List.cons_append]
  rw [e, afterLine_append _ _ _ hno2, List.filter_append]
  rw [← h1]
  congr 1
  simp

/-- **C89.** The table of a summary, read back, has exactly one row for each extracted peak, in order: its numbers are the
position, width and area of the peak in the format "pwa", and its index leads to the line with the peak's function in the list of
functions (and from there to the function it is based on). -/
theorem c89_peaks {W : Pwa K} {safe : List ℕ → List (Owner K)} {p : Px K} {comments text : List Char}
    {float : List Char → Option K} (hf : ∀ x, float (W.str x) = some x) (hW : Printable W p)
    (h : writepwastr W safe p comments = .ok text) :
    ∃ m rows, p.extracted = some m ∧ readPwa float text = some rows ∧ List.Forall₂ (RowOf W text) m.model rows := by
  obtain ⟨m, ids, rows, hm, hi, hr, hall⟩ := table_read hf hW h
  refine ⟨m, rows, hm, hr, ?_⟩
  refine hall.imp ?_
  rintro q row ⟨h1, n, h2, h3⟩
  refine ⟨h1, n, h2, ?_⟩
  obtain ⟨o, ho, e⟩ := ownerIndex_some h3
  obtain ⟨b, hb, hl⟩ := functionsIn_line hW h hi n o ho
  rw [e] at hl
  rcases pwaBaseText_ok hb with ⟨hb1, rfl⟩ | ⟨b', j, o', hb1, hj, ho', rfl⟩
  · rw [e] at hb1
    rw [hb1]
    exact hl
  · rw [e] at hb1
    rw [hb1]
    refine ⟨j, ?_, ?_⟩
    · rw [hl, fields_last _ (word_base j)]
    · obtain ⟨b2, _, hl2⟩ := functionsIn_line hW h hi j o' hj
      exact ⟨_, ho' ▸ hl2⟩

/-- **C89.** Two rows have the same index exactly if the peaks have the same function (the same object, not only the same
kind). -/
theorem c89_same_function {W : Pwa K} {safe : List ℕ → List (Owner K)} {p : Px K} {comments text : List Char}
    {float : List Char → Option K} (hf : ∀ x, float (W.str x) = some x) (hW : Printable W p)
    (h : writepwastr W safe p comments = .ok text) {m : Mc K} (hm : p.extracted = some m) {rows : List (K × K × K × List Char)}
    (hr : readPwa float text = some rows) (i j : ℕ) (a b : Part K) (r s : K × K × K × List Char)
    (ha : m.model[i]? = some a) (hb : m.model[j]? = some b) (hrow : rows[i]? = some r) (hs : rows[j]? = some s) :
    r.2.2.2 = s.2.2.2 ↔ a.owner.id = b.owner.id := by
  obtain ⟨m', ids, rows', hm', hi, hr', hall⟩ := table_read hf hW h
  rw [hm] at hm'
  cases hm'
  rw [hr] at hr'
  cases hr'
  have key : ∀ (k : ℕ) q t, m.model[k]? = some q → rows[k]? = some t → ∃ n, t.2.2.2 = reprNat n ∧ ownerIndex (safe ids) q.owner.id = some n := by
    intro k q t hq ht
    obtain ⟨hk, rfl⟩ := List.getElem?_eq_some_iff.1 hq
    obtain ⟨hk', rfl⟩ := List.getElem?_eq_some_iff.1 ht
    exact (hall.get hk hk').2
  obtain ⟨n, h1, h2⟩ := key i a r ha hrow
  obtain ⟨n', h3, h4⟩ := key j b s hb hs
  rw [h1, h3]
  constructor
  · intro e
    cases reprNat_inj e
    obtain ⟨o, ho, e1⟩ := ownerIndex_some h2
    obtain ⟨o', ho', e2⟩ := ownerIndex_some h4
    rw [ho] at ho'
    cases ho'
    rw [← e1, ← e2]
  · intro e
    rw [e, h4] at h2
    cases h2
    rfl

/-- **C89.** The comments can be read back line by line, whatever they contain: they cannot be taken for headings or rows. -/
theorem c89_comments {W : Pwa K} {safe : List ℕ → List (Owner K)} {p : Px K} {comments text : List Char} (hW : Printable W p)
    (h : writepwastr W safe p comments = .ok text) : commentsIn text = splitlines comments := by
  obtain ⟨m, ids, c, e, quality, nbl, bfl, bll, pfl, pl, _, _, _, _, _, ht, _, _, _⟩ := summary_lines hW h
  unfold commentsIn
  rw [ht]
  unfold pwaPre pwaHead
  simp only [List.append_assoc, List.cons_append]
  generalize hA : "## Peak Functions".toList = A
  have e1 : ∀ rest, afterLine "##### User comments".toList (("Summary written: ".toList ++ W.time) :: ("produced by ".toList ++ W.user) ::
      ("diffpy.srmise version ".toList ++ W.version) :: "##### User comments".toList :: rest) = rest := by
    intro rest
    have := afterLine_append "##### User comments".toList [("Summary written: ".toList ++ W.time), ("produced by ".toList ++ W.user),
      ("diffpy.srmise version ".toList ++ W.version)] rest (by
        apply heading_notMem (lits := ["Summary written: ".toList, "produced by ".toList, "diffpy.srmise version ".toList]) (by decide)
        intro l hl
        simp only [List.mem_cons, List.not_mem_nil, or_false] at hl
        rcases hl with rfl | rfl | rfl <;> exact kind_lit _ _ (by decide))
    simpa only [List.cons_append, List.nil_append] using this
  rw [e1, List.nil_append, takeWhile_append]
  · rw [List.map_map]
    have : (List.drop 2 ∘ fun c => "# ".toList ++ c) = (id : List Char → List Char) := by
      funext c
      rfl
    rw [this, List.map_id]
  · intro l hl
    obtain ⟨c, _, rfl⟩ := List.mem_map.1 hl
    rw [decide_eq_true_eq]
    exact heading_ne (lits := ["# ".toList]) (by decide) (kind_lit _ _ (by decide))
  · exact decide_eq_false (fun h => h rfl)

/-- Names sorted by index, when the indices are 0, 1, …: each name is at its index. -/
theorem labels_at (o : Owner K) (hd : (o.dict.map Prod.snd).Perm (List.range o.dict.length)) :
    (parLabels o).length = o.dict.length ∧ ∀ e ∈ o.dict, (parLabels o)[e.2]? = some e.1.toList := by
  have hp := List.perm_insertionSort (fun a b : String × ℕ => a.2 ≤ b.2) o.dict
  refine ⟨by unfold parLabels; rw [List.length_map, hp.length_eq], ?_⟩
  have hs : ((o.dict.insertionSort (fun a b => a.2 ≤ b.2)).map Prod.snd).Pairwise (· ≤ ·) := by
    rw [List.pairwise_map]
    have : Std.Total (fun a b : String × ℕ => a.2 ≤ b.2) := ⟨fun a b => le_total a.2 b.2⟩
    have : IsTrans (String × ℕ) (fun a b => a.2 ≤ b.2) := ⟨fun a b c h1 h2 => le_trans h1 h2⟩
    exact List.pairwise_insertionSort _ _
  have he : (o.dict.insertionSort (fun a b => a.2 ≤ b.2)).map Prod.snd = List.range o.dict.length :=
    ((hp.map Prod.snd).trans hd).eq_of_pairwise (fun a b _ _ h1 h2 => le_antisymm h1 h2) hs
      ((List.pairwise_lt_range).imp (fun h => le_of_lt h))
  intro e hm
  obtain ⟨j, hj⟩ := List.getElem?_of_mem (hp.mem_iff.2 hm)
  have : ((o.dict.insertionSort (fun a b => a.2 ≤ b.2)).map Prod.snd)[j]? = some e.2 := by rw [List.getElem?_map, hj]; rfl
  rw [he] at this
  have hje : j = e.2 := by
    obtain ⟨h1, h2⟩ := List.getElem?_eq_some_iff.1 this
    rwa [List.getElem_range] at h2
  unfold parLabels
  rw [List.getElem?_map, ← hje, hj]
  rfl

/-- **C89.** The section on the baseline: "None" without one; else the names of its parameters, each at its index, and below them its parameters in
the same order, followed by the number of the line that has its function in the section on the baseline functions. -/
theorem c89_baseline {W : Pwa K} {safe : List ℕ → List (Owner K)} {p : Px K} {comments text : List Char} (hW : Printable W p)
    (h : writepwastr W safe p comments = .ok text) :
    ∃ m, p.extracted = some m ∧
      (m.baseline = none → ((afterLine "## Baseline".toList (splitLines text)).drop 2).head? = some "None".toList) ∧
      ∀ b, m.baseline = some b → (b.owner.dict.map Prod.snd).Perm (List.range b.owner.dict.length) → ∃ n rest, ((afterLine "## Baseline Functions".toList (splitLines text)).drop 1)[n]? =
          some (reprNat n ++ ' ' :: (W.moduleOf b.owner.id ++ ' ' :: rest)) ∧
        (0 < b.owner.npars → ∃ labels, labels.length = b.owner.dict.length ∧ (∀ e ∈ b.owner.dict, labels[e.2]? = some e.1.toList) ∧
          ((afterLine "## Baseline".toList (splitLines text)).drop 2).take 2 =
            ["# ".toList ++ join [' '] labels, join [' '] (b.pars.map W.str) ++ " # ".toList ++ reprNat n]) ∧
        (b.owner.npars = 0 → ((afterLine "## Baseline".toList (splitLines text)).drop 2).head? = some ("(no parameters)".toList ++ " # ".toList ++ reprNat n)) := by
  obtain ⟨m, ids, c, e, quality, nbl, bfl, bll, pfl, pl, hm, _, hn, _, _, ht, _, _, _, hq, hbf, hbl⟩ := summary_lines hW h
  refine ⟨m, hm, ?_⟩
  have kinds : ∀ l ∈ pwaHead W comments ++ pwaModel W p m c e quality nbl, KindOf headLits1 l := by
    intro l hl
    rcases List.mem_append.1 hl with hl | hl
    · exact kind_mono (pwaHead_line hW comments l hl).2 (by decide)
    · exact (pwaModel_line hW m c e hq nbl l hl).2
  have k1 : ∀ rest, afterLine "## Baseline Functions".toList ((pwaHead W comments ++ pwaModel W p m c e quality nbl) ++ "## Baseline Functions".toList :: rest) = rest := by
    intro rest
    exact afterLine_append _ _ _ (heading_notMem (lits := headLits1) (by decide) kinds)
  have k2 : ∀ rest, afterLine "## Baseline".toList (((pwaHead W comments ++ pwaModel W p m c e quality nbl) ++ (["## Baseline Functions".toList, "# Index Type".toList] ++ bfl ++ [[]])) ++
      "## Baseline".toList :: rest) = rest := by
    intro rest
    apply afterLine_append
    apply heading_notMem (lits := "## Baseline Functions".toList :: headLits1) (by decide)
    intro l hl
    rcases List.mem_append.1 hl with hl | hl
    · exact kind_mono (kinds l hl) (fun x hx => List.mem_cons_of_mem _ hx)
    rcases List.mem_append.1 hl with hl | hl
    · rcases List.mem_append.1 hl with hl | hl
      · rcases List.mem_cons.1 hl with rfl | hl
        · exact kind_exact _ (by decide)
        · rw [List.mem_singleton.1 hl]
          exact .inr (.inl ⟨"# ".toList, by decide, "Index Type".toList, rfl⟩)
      · exact (pwaFnLines_line hbf hW.moduleOf l hl).2.2 _
    · rw [List.mem_singleton.1 hl]; exact .inl rfl
  have e1 : ∃ rest, afterLine "## Baseline Functions".toList (splitLines text) = "# Index Type".toList :: (bfl ++ rest) := by
    rw [ht]
    unfold pwaPre
    generalize pwaIntro = B at *
    generalize pwaModel W p m c e quality nbl = C at *
    generalize pwaHead W comments = A at *
    simp only [List.append_assoc, List.cons_append, List.nil_append] at k1 ⊢
    exact ⟨_, k1 _⟩
  have e2 : ∃ rest, afterLine "## Baseline".toList (splitLines text) = "# Parameters of baseline, followed by comment which".toList ::
      "# gives the index of corresponding Baseline Function.".toList :: (bll ++ rest) := by
    rw [ht]
    unfold pwaPre
    generalize pwaIntro = B at *
    generalize pwaModel W p m c e quality nbl = C at *
    generalize pwaHead W comments = A at *
    simp only [List.append_assoc, List.cons_append, List.nil_append] at k2 ⊢
    exact ⟨_, k2 _⟩
  obtain ⟨r1, e1⟩ := e1
  obtain ⟨r2, e2⟩ := e2
  rw [e1, e2]
  constructor
  · intro hb
    rw [hb] at hbl
    cases hbl
    rfl
  · intro b hb hd
    rw [hb] at hbl
    unfold pwaBaseline at hbl
    simp only at hbl
    cases hi : ownerIndex (safe (allBf p)) b.owner.id with
    | none => rw [hi] at hbl; cases hbl
    | some n =>
      rw [hi] at hbl
      obtain ⟨o, ho, hid⟩ := ownerIndex_some hi
      obtain ⟨-, hf⟩ := pwaFnLines_ok hbf
      obtain ⟨t, -, hl⟩ := hf n o ho
      rw [Nat.zero_add, hid] at hl
      refine ⟨n, t, ?_, ?_, ?_⟩
      · rw [List.drop_succ_cons, List.drop_zero]
        obtain ⟨hlt, -⟩ := List.getElem?_eq_some_iff.1 hl
        rw [List.getElem?_append_left hlt, hl]
      · intro hnp
        simp only [hnp, if_true] at hbl
        cases hbl
        obtain ⟨q1, q2⟩ := labels_at b.owner hd
        exact ⟨_, q1, q2, rfl⟩
      · intro hnp
        simp only [hnp, lt_irrefl, if_false] at hbl
        cases hbl
        rfl

/-- **C89.** The counts in the section on the quality: the free parameters of all extracted peaks, those of the baseline, the
number of points. -/
theorem c89_counts {W : Pwa K} {safe : List ℕ → List (Owner K)} {p : Px K} {comments text : List Char} (hW : Printable W p)
    (h : writepwastr W safe p comments = .ok text) :
    ∃ m n, p.extracted = some m ∧ ((p.baseline = none ∧ n = 0) ∨ ∃ b, p.baseline = some (.inl b) ∧ n = b.free.count true) ∧
      ((afterLine "## Model Quality".toList (splitLines text)).drop 1).take 3 =
        ["# Free parameters in extracted peaks: ".toList ++ reprNat (m.model.map (fun q => q.free.count true)).sum,
         "# Free parameters in baseline: ".toList ++ reprNat n, "# Length of data in final fit: ".toList ++ reprNat m.r.length] := by
  obtain ⟨m, ids, c, e, quality, nbl, bfl, bll, pfl, pl, hm, _, hn, _, _, ht, _, _, _⟩ := summary_lines hW h
  refine ⟨m, nbl, hm, ?_, ?_⟩
  · cases hb : p.baseline with
    | none => rw [hb] at hn; cases hn; exact .inl ⟨rfl, rfl⟩
    | some b =>
      cases b with
      | inl b => rw [hb] at hn; cases hn; exact .inr ⟨b, rfl, rfl⟩
      | inr f => rw [hb] at hn; cases hn
  have key : ∀ rest, afterLine "## Model Quality".toList ((pwaHead W comments ++ ["## Peak extraction metadata".toList, "Range=".toList ++ p.rng,
      "cres=".toList ++ W.fmt c, "effective_dy=".toList ++ W.str (W.mean e) ++ " (mean)".toList, []]) ++ "## Model Quality".toList :: rest) = rest := by
    intro rest
    apply afterLine_append
    apply heading_notMem (lits := headLits0 ++ ["## Peak extraction metadata".toList, "Range=".toList, "cres=".toList, "effective_dy=".toList]) (by decide)
    intro l hl
    rcases List.mem_append.1 hl with hl | hl
    · exact kind_mono (pwaHead_line hW comments l hl).2 (fun x hx => List.mem_append_left _ hx)
    · simp only [List.mem_cons, List.not_mem_nil, or_false] at hl
      rcases hl with rfl | rfl | rfl | rfl | rfl
      · exact kind_exact _ (by decide)
      · exact kind_lit _ _ (by decide)
      · exact kind_lit _ _ (by decide)
      · rw [List.append_assoc]
        exact kind_lit _ _ (by decide)
      · exact .inl rfl
  rw [ht]
  have hn : (m.model.map (fun q => q.free.count true)).sum = npars m.model false := by
    unfold npars
    congr 1
  rw [hn]
  unfold pwaPre pwaModel
  generalize pwaIntro = B at *
  generalize pwaHead W comments = A at *
  simp only [List.append_assoc, List.cons_append, List.nil_append] at key ⊢
  rw [key]
  rfl

theorem okBind {α β : Type} (a : α) (f : α → Res β) : ((.ok a : Res α) >>= f) = f a := rfl

theorem pwaFnLines_total (W : Pwa K) (all : List (Owner K)) (i : ℕ) (fs : List (Owner K))
    (h : ∀ f ∈ fs, ∀ b, W.baseOf f.id = some b → Listed all b) : ∃ ls, pwaFnLines W all i fs = .ok ls := by
  induction fs generalizing i with
  | nil => exact ⟨[], rfl⟩
  | cons f fs ih =>
    obtain ⟨ls, hls⟩ := ih (i + 1) (fun g hg => h g (by simp [hg]))
    have hb : ∃ t, pwaBaseText W all f = .ok t := by
      unfold pwaBaseText
      cases hbf : W.baseOf f.id with
      | none => exact ⟨_, rfl⟩
      | some b =>
        obtain ⟨j, hj⟩ := (ownerIndex_listed all b).1 (h f (by simp) b hbf)
        simp only
        rw [hj]
        exact ⟨_, rfl⟩
    obtain ⟨t, ht⟩ := hb
    rw [pwaFnLines, ht, hls]
    exact ⟨_, rfl⟩

/-- A peak has the format "pwa" with position, width and area. -/
def Summable (q : Part K) : Prop :=
  ∃ v a b c, q.owner.transform q.pars (some "internal") (some "pwa") = .ok v ∧ Named q.owner v "position" a ∧
    Named q.owner v "width" b ∧ Named q.owner v "area" c

theorem pwaPar_named {o : Owner K} {q : List K} {name : String} {v : K} (h : Named o q name v) : pwaPar o q name = .ok v := by
  obtain ⟨i, h1, h2⟩ := h
  unfold pwaPar
  rw [h1]
  simp only
  rw [h2]

theorem pwaPeaks_total (W : Pwa K) (pf : List (Owner K)) (ps : List (Part K)) (hl : ∀ q ∈ ps, Listed pf q.owner.id)
    (hs : ∀ q ∈ ps, Summable q) : ∃ ls, pwaPeaks W pf ps = .ok ls := by
  induction ps with
  | nil => exact ⟨[], rfl⟩
  | cons q ps ih =>
    obtain ⟨ls, hls⟩ := ih (fun x hx => hl x (by simp [hx])) (fun x hx => hs x (by simp [hx]))
    obtain ⟨v, a, b, c, h1, h2, h3, h4⟩ := hs q (by simp)
    obtain ⟨i, hi⟩ := (ownerIndex_listed pf q.owner.id).1 (hl q (by simp))
    have hq : ∃ l, pwaPeak W pf q = .ok l := by
      unfold pwaPeak
      rw [h1]
      rw [okBind, pwaPar_named h2, okBind, pwaPar_named h3, okBind, pwaPar_named h4, okBind, hi]
      exact ⟨_, rfl⟩
    obtain ⟨l, hl'⟩ := hq
    rw [pwaPeaks, hl', hls]
    exact ⟨_, rfl⟩

theorem allPf_total {p : Px K} {m : Mc K} (hm : p.extracted = some m) (hf : m.funcs ≠ none) :
    ∃ ids, allPf p = .ok ids ∧ ∀ q ∈ m.model, q.owner.id ∈ ids := by
  unfold allPf
  simp only
  rw [hm]
  simp only
  cases hx : m.funcs with
  | none => exact absurd hx hf
  | some fs =>
    refine ⟨_, rfl, ?_⟩
    intro q hq
    simp only [List.mem_append, List.mem_map]
    exact .inr ⟨q, hq, rfl⟩

/-- **C89.** A summary can be written of every extraction with resolution and uncertainties whose baseline variable is not a
function (that is, every `PDFPeakExtraction` after `extract` or `fit`) and whose peaks have position, width and area.  The lists of
functions hold what they are made from and what these are based on (`c19_safefunctionlist`). -/
theorem c89_writable (W : Pwa K) (safe : List ℕ → List (Owner K)) (p : Px K) (comments : List Char) (m : Mc K)
    (hsafe : ∀ ids, ∀ i ∈ ids, Listed (safe ids) i)
    (hbase : ∀ ids, ∀ f ∈ safe ids, ∀ b, W.baseOf f.id = some b → Listed (safe ids) b)
    (hm : p.extracted = some m) (hc : p.cres ≠ none) (he : p.edy ≠ none) (hq : ∃ t, W.quality = .ok t)
    (hb : ∀ f, p.baseline ≠ some (.inr f)) (hf : m.funcs ≠ none) (hs : ∀ q ∈ m.model, Summable q) :
    ∃ text, writepwastr W safe p comments = .ok text := by
  obtain ⟨c, hc⟩ := Option.ne_none_iff_exists'.1 hc
  obtain ⟨e, he⟩ := Option.ne_none_iff_exists'.1 he
  obtain ⟨t, hq⟩ := hq
  obtain ⟨ids, hi, hids⟩ := allPf_total hm hf
  obtain ⟨n, hn⟩ : ∃ n, baselineFree p.baseline = .ok n := by
    cases hx : p.baseline with
    | none => exact ⟨_, rfl⟩
    | some b =>
      cases b with
      | inl b => exact ⟨_, rfl⟩
      | inr f => exact absurd hx (hb f)
  obtain ⟨bfl, hbfl⟩ := pwaFnLines_total W (safe (allBf p)) 0 (safe (allBf p)) (hbase _)
  obtain ⟨pfl, hpfl⟩ := pwaFnLines_total W (safe ids) 0 (safe ids) (hbase _)
  obtain ⟨pl, hpl⟩ := pwaPeaks_total W (safe ids) m.model (fun q hq => hsafe _ _ (hids q hq)) hs
  obtain ⟨bll, hbll⟩ : ∃ ls, pwaBaseline W (safe (allBf p)) m.baseline = .ok ls := by
    cases hx : m.baseline with
    | none => exact ⟨_, rfl⟩
    | some b =>
      obtain ⟨i, hi⟩ := (ownerIndex_listed (safe (allBf p)) b.owner.id).1 (hsafe _ _ (by simp [allBf, hm, hx]))
      unfold pwaBaseline
      simp only
      rw [hi]
      simp only
      split
      · exact ⟨_, rfl⟩
      · exact ⟨_, rfl⟩
  unfold writepwastr pwaLines
  rw [hm]
  simp only
  rw [hc, he, hq, hn, hi]
  simp only [okBind]
  rw [hbfl, hbll, hpfl, hpl]
  exact ⟨_, rfl⟩

/-- **C89.** Before anything is extracted there is no summary: SrMiseError. -/
theorem c89_not_extracted (W : Pwa K) (safe : List ℕ → List (Owner K)) (p : Px K) (comments : List Char) (h : p.extracted = none) :
    writepwastr W safe p comments = .error Err.srmise := by
  unfold writepwastr pwaLines
  rw [h]
  rfl

/-- **C89, finding.** With a baseline variable that is a function (which `setvars` accepts) or without resolution or
uncertainties there is no summary of what was extracted before. -/
theorem c89_unwritable (W : Pwa K) (safe : List ℕ → List (Owner K)) (p : Px K) (comments : List Char)
    (h : (∃ f, p.baseline = some (.inr f)) ∨ p.cres = none ∨ p.edy = none) (text : List Char) :
    writepwastr W safe p comments ≠ .ok text := by
  intro hw
  unfold writepwastr at hw
  obtain ⟨ls, hls, _⟩ := bindRes hw
  obtain ⟨m, c, e, quality, nbl, ids, bfl, bll, pfl, pl, hm, hc, he, hq, hn, _⟩ := pwaLines_ok hls
  rcases h with ⟨f, h⟩ | h | h
  · rw [h] at hn; cases hn
  · rw [h] at hc; cases hc
  · rw [h] at he; cases he

/-- **C89.** A file is only opened when the summary is complete: if `writepwa` raises an exception because of the extraction, the
file is as before; if it succeeds, the file is the summary. -/
theorem c89_file (W : Pwa K) (safe : List ℕ → List (Owner K)) (p : Px K) (comments : List Char) (writable : Bool)
    (file : Option (List Char)) :
    (∀ e, (writepwa W safe p comments writable file).1 = .error e → (writepwa W safe p comments writable file).2 = file) ∧
    ((writepwa W safe p comments writable file).1 = .ok () →
      ∃ text, writepwastr W safe p comments = .ok text ∧ (writepwa W safe p comments writable file).2 = some text) := by
  unfold writepwa
  cases h : writepwastr W safe p comments with
  | error e => exact ⟨fun _ _ => rfl, fun h => by cases h⟩
  | ok t =>
    cases writable with
    | true => exact ⟨fun _ h => (by cases h), fun _ => ⟨t, rfl, rfl⟩⟩
    | false => exact ⟨fun _ _ => rfl, fun h => by cases h⟩

/-! ### An example -/

/-- A number in strokes, so that they can be read back. -/
def exStroke (x : ℤ) : List Char := x.toNat.repeat (fun l => 'I' :: l) (if x < 0 then (-x).toNat.repeat (fun l => 'i' :: l) ['-'] else ['0'])

/-- The number of `I` in a word, negative if there are `i`. -/
def exTally (t : List Char) : Option ℤ := some ((t.count 'I' : ℤ) - (t.count 'i' : ℤ))

/-- Peak functions with position, width and area. -/
def exPeakOwner (id : ℕ) : Owner ℤ :=
  ⟨id, 3, [("position", 0), ("width", 1), ("area", 2)], fun _ r => r, fun _ _ _ => [], fun p _ _ => .ok (p.map (· + 1))⟩

/-- Two extracted peaks with different functions; one function is based on the other. -/
def exPwaMc : Mc ℤ :=
  ⟨[⟨exPeakOwner 5, [1, 2, 3], [true, true, false], true, false, false⟩, ⟨exPeakOwner 8, [4, 5, 6], [true, true, true], true, false, false⟩],
    some ⟨exPeakOwner 9, [0, 1, 2], [true, false, false], false, false, false⟩, some [5, 8], some "AIC".toList, "slice(0, 2, None)".toList, [3, 7], [7, 7], [3, 3]⟩

def exPwaPx : Px ℤ := { cres := some 2, edy := some [1, 1], extracted := some exPwaMc }

def exPwa : Pwa ℤ where
  time := "now".toList
  user := "me".toList
  version := "1".toList
  pdf := fun _ => "None".toList
  quality := .ok "3".toList
  moduleOf := fun i => 'f' :: reprNat i
  baseOf := fun i => if i = 5 then some 8 else none
  str := exStroke
  fmt := exStroke
  mean := fun _ => 1

/-- A list in which the functions come after what they are based on. -/
def exPwaSafe (ids : List ℕ) : List (Owner ℤ) := (8 :: ids).reverse.dedup.reverse.map exPeakOwner

theorem exStroke_spec (x : ℤ) : Word (exStroke x) ∧ exTally (exStroke x) = some x := by
  have key : ∀ (n : ℕ) (c : Char) (l : List Char), n.repeat (fun l => c :: l) l = List.replicate n c ++ l := by
    intro n c l
    induction n with
    | zero => rfl
    | succ n ih => rw [Nat.repeat, ih]; rfl
  have hI : isSpace 'I' = false := by decide
  have hi : isSpace 'i' = false := by decide
  unfold exStroke
  rw [key, key]
  by_cases hx : x < 0
  · rw [if_pos hx]
    refine ⟨⟨by simp, ?_⟩, ?_⟩
    · intro c hc
      simp only [List.mem_append, List.mem_replicate, List.mem_singleton] at hc
      rcases hc with ⟨_, rfl⟩ | ⟨_, rfl⟩ | rfl <;> decide
    · unfold exTally
      simp [List.count_append, List.count_replicate]
      omega
  · rw [if_neg hx]
    refine ⟨⟨by simp, ?_⟩, ?_⟩
    · intro c hc
      simp only [List.mem_append, List.mem_replicate, List.mem_singleton] at hc
      rcases hc with ⟨_, rfl⟩ | rfl <;> decide
    · unfold exTally
      simp [List.count_append, List.count_replicate]
      omega

theorem exPwa_printable : Printable exPwa exPwaPx where
  time := by decide
  user := by decide
  version := by decide
  pdf := fun _ => by show '\n' ∉ "None".toList; decide
  quality := by
    intro t ht
    cases ht
    decide
  moduleOf := fun f => ⟨by simp [exPwa], by
    intro c hc
    rcases List.mem_cons.1 hc with rfl | hc
    · decide
    · exact reprNat_digit hc⟩
  str := fun x => (exStroke_spec x).1
  fmt := fun x => (exStroke_spec x).1
  rng := by decide
  method := fun _ h => by cases h
  labels := by
    intro m b hm hb
    cases hm
    cases hb
    decide

/-- Instance of `c89_writable`, `c89_peaks`, `c89_comments` and `c89_counts`. -/
example : ∃ text m rows, writepwastr exPwa exPwaSafe exPwaPx "#L position fwhm area\n## Peak Functions".toList = .ok text ∧
    exPwaPx.extracted = some m ∧ readPwa exTally text = some rows ∧ List.Forall₂ (RowOf exPwa text) m.model rows ∧
    commentsIn text = ["#L position fwhm area".toList, "## Peak Functions".toList] := by
  obtain ⟨text, ht⟩ := c89_writable exPwa exPwaSafe exPwaPx "#L position fwhm area\n## Peak Functions".toList exPwaMc
    (fun ids i hi => ⟨exPeakOwner i, List.mem_map.2 ⟨i, by simp [hi], rfl⟩, rfl⟩)
    (by
      intro ids f _ b hb
      simp only [exPwa] at hb
      split at hb
      · cases hb
        exact ⟨exPeakOwner 8, List.mem_map.2 ⟨8, by simp, rfl⟩, rfl⟩
      · cases hb) rfl (by decide) (by decide) ⟨_, rfl⟩ (fun f h => by cases h) (by decide) (by
      intro q hq
      simp only [exPwaMc, List.mem_cons, List.not_mem_nil, or_false] at hq
      rcases hq with rfl | rfl
      · exact ⟨[2, 3, 4], 2, 3, 4, rfl, ⟨0, rfl, rfl⟩, ⟨1, rfl, rfl⟩, ⟨2, rfl, rfl⟩⟩
      · exact ⟨[5, 6, 7], 5, 6, 7, rfl, ⟨0, rfl, rfl⟩, ⟨1, rfl, rfl⟩, ⟨2, rfl, rfl⟩⟩)
  obtain ⟨m, rows, h1, h2, h3⟩ := c89_peaks (fun x => (exStroke_spec x).2) exPwa_printable ht
  exact ⟨text, m, rows, ht, h1, h2, h3, (c89_comments exPwa_printable ht).trans (by decide)⟩

/-- What is read from that summary: positions, widths and areas of both peaks, and the functions. -/
example : ((writepwastr exPwa exPwaSafe exPwaPx "hi".toList).toOption.bind (readPwa exTally)) =
      some [((2 : ℤ), (3 : ℤ), (4 : ℤ), "1".toList), (5, 6, 7, "0".toList)] ∧
    ((writepwastr exPwa exPwaSafe exPwaPx "hi".toList).toOption.map functionsIn) =
      some [["0".toList, "f8".toList], ["1".toList, "f5".toList, "(base=0)".toList]] := by
  constructor <;> decide +kernel

/-- Instance of `c89_baseline`, with what stands in that section. -/
example {text : List Char} (h : writepwastr exPwa exPwaSafe exPwaPx "## Baseline".toList = .ok text) := c89_baseline exPwa_printable h

example : ((writepwastr exPwa exPwaSafe exPwaPx "## Baseline".toList).toOption.map (fun t => ((afterLine "## Baseline".toList (splitLines t)).drop 2).take 2)) =
      some ["# position width area".toList, "0 I0 II0 # 1".toList] := by
  decide +kernel

/-- **C89, finding.** The number of free parameters of the baseline is that of the variable `baseline`, not of the extracted
baseline: here the latter has one, and the summary says 0. -/
theorem c89_baseline_count : ∃ (p : Px ℤ) (m : Mc ℤ) (b : Part ℤ), p.extracted = some m ∧ m.baseline = some b ∧ b.npars false = 1 ∧
    ((writepwastr exPwa exPwaSafe p []).toOption.map (fun t => (afterLine "## Model Quality".toList (splitLines t))[2]?)) =
      some (some "# Free parameters in baseline: 0".toList) :=
  ⟨exPwaPx, exPwaMc, _, rfl, rfl, rfl, (by decide +kernel)⟩

end Verif.Text
