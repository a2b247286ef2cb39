import Verif.Text.Alone

/-!
# C111: a cluster written on its own and read on its own
-/

namespace Verif.Text

open Verif.Py Verif.Parts

open Verif.Pdf (splitLines)

set_option linter.unusedSectionVars false

variable {K V E : Type}

/-- The function that stands in the list `fs'` where the function with this identity stands in `fs`. -/
def twin (fs fs' : List (Owner K)) (id : ℕ) : Option (Owner K) := (ownerIndex fs id).bind (fun i => fs'[i]?)

/-- A part with the function from the other list. -/
def moved (fs fs' : List (Owner K)) (p : Part K) : Part K := { p with owner := (twin fs fs' p.owner.id).getD p.owner }

/-- A cluster with the functions from the other lists. -/
def movedMc (pf pf' blf blf' : List (Owner K)) (c : Mc K) : Mc K :=
  { c with model := c.model.map (moved pf pf'), baseline := c.baseline.map (moved blf blf'),
           funcs := c.funcs.map (List.map (fun f => ((twin pf pf' f).map Owner.id).getD f)) }

theorem ownerIndex_nodup {fs : List (Owner K)} (h : (fs.map Owner.id).Nodup) {i : ℕ} {o : Owner K} (ho : fs[i]? = some o) :
    ownerIndex fs o.id = some i := by
  obtain ⟨hi, ho⟩ := List.getElem?_eq_some_iff.1 ho
  unfold ownerIndex
  rw [List.findIdx?_eq_some_iff_getElem]
  refine ⟨hi, by simp [ho], ?_⟩
  intro j hj
  simp only [decide_eq_true_eq]
  intro he
  have e : (fs.map Owner.id)[j]'(by simp; omega) = (fs.map Owner.id)[i]'(by simpa using hi) := by
    simp only [List.getElem_map]
    rw [he, ho]
  have := (List.Nodup.getElem_inj_iff h).1 e
  omega

/-- What is needed of the two lists: where a function is found in the one, there is one in the other, found there. -/
theorem back_index {P : Python K V} {call : FnRead V → List (Owner K) → Res (Owner K)}
    {fnText : List (Owner K) → Owner K → Res FnText} {given : Option (List (Owner K))} {fs fs' : List (Owner K)}
    (hb : Back P call fnText given fs fs') {id i : ℕ} (hi : ownerIndex fs id = some i) :
    ∃ o o', fs[i]? = some o ∧ o.id = id ∧ fs'[i]? = some o' ∧ ownerIndex fs' o'.id = some i ∧ o'.npars = o.npars ∧
      ((∀ x ∈ fs, x.id = id → x = o) → ∀ x ∈ fs', x.id = o'.id → x = o') := by
  obtain ⟨o, ho, hid⟩ := ownerIndex_some hi
  unfold Back at hb
  cases given with
  | some _ =>
    subst hb
    exact ⟨o, o, ho, hid, ho, by rw [hid]; exact hi, rfl, fun h x hx e => h x hx (by rw [e, hid])⟩
  | none =>
    obtain ⟨f, r, o', -, -, -, h1, -, h2⟩ := hb.each i o ho
    refine ⟨o, o', ho, hid, h1, ownerIndex_nodup hb.fresh h1, h2, ?_⟩
    intro _ x hx e
    obtain ⟨j, hj⟩ := List.getElem?_of_mem hx
    have e1 := ownerIndex_nodup hb.fresh hj
    have e2 := ownerIndex_nodup hb.fresh h1
    rw [e, e2] at e1
    cases e1
    rw [h1] at hj
    injection hj with hj
    exact hj.symm

section

variable {P : Python K V} {call : FnRead V → List (Owner K) → Res (Owner K)}
  {fnText : List (Owner K) → Owner K → Res FnText} {given : Option (List (Owner K))} {fs fs' : List (Owner K)}

theorem moved_eq (hb : Back P call fnText given fs fs') {p : Part K} {i : ℕ} (hi : ownerIndex fs p.owner.id = some i) :
    ∃ o', fs'[i]? = some o' ∧ moved fs fs' p = { p with owner := o' } ∧ ownerIndex fs' o'.id = some i := by
  obtain ⟨o, o', -, -, h1, h2, -, -⟩ := back_index hb hi
  refine ⟨o', h1, ?_, h2⟩
  unfold moved twin
  rw [hi, Option.bind_some, h1, Option.getD_some]

theorem moved_text (hb : Back P call fnText given fs fs') {p : Part K} {t : List Char} (hw : writestr P p fs = .ok t) :
    writestr P (moved fs fs' p) fs' = .ok t := by
  unfold writestr at hw
  cases hi : ownerIndex fs p.owner.id with
  | none => rw [hi] at hw; cases hw
  | some i =>
    rw [hi] at hw
    obtain ⟨o', h1, h2, h3⟩ := moved_eq hb hi
    rw [h2]
    unfold writestr
    simp only [h3]
    exact hw

theorem moved_readable (hb : Back P call fnText given fs fs') {p : Part K} {t : List Char} (hw : writestr P p fs = .ok t)
    (h : PartReadable P fs p) : PartReadable P fs' (moved fs fs' p) := by
  unfold writestr at hw
  cases hi : ownerIndex fs p.owner.id with
  | none => rw [hi] at hw; cases hw
  | some i =>
    obtain ⟨o, o', ho, hid, h1, h2, h3, h4⟩ := back_index hb hi
    have ho' : o = p.owner := h.own o (List.mem_of_getElem? ho) hid
    subst ho'
    obtain ⟨o'', e1, e2, -⟩ := moved_eq hb hi
    rw [h1] at e1
    cases e1
    rw [e2]
    refine ⟨h4 h.own, by rw [h.pars, ← h3], by rw [h.free, ← h3], ?_⟩
    intro j hj
    simp only at hj
    rw [h2] at hj
    cases hj
    have hr := h.readable i hi
    exact ⟨hr.index, hr.pars, hr.free, hr.bool, hr.numLine, hr.freeLine⟩

theorem moved_peaks (hb : Back P call fnText given fs fs') {ps : List (Part K)} {pt : List (List Char)}
    (hw : peaksText P fs ps = .ok pt) : peaksText P fs' (ps.map (moved fs fs')) = .ok pt ∧ ∀ p ∈ ps, ∃ t, writestr P p fs = .ok t := by
  induction ps generalizing pt with
  | nil => exact ⟨hw, fun _ h => nomatch h⟩
  | cons p ps ih =>
    rw [peaksText] at hw
    split at hw
    · cases hw
    · rename_i t ht
      split at hw
      · cases hw
      · rename_i ts hts
        obtain ⟨i1, i2⟩ := ih hts
        refine ⟨?_, ?_⟩
        · rw [List.map_cons, peaksText, moved_text hb ht]
          simp only
          rw [i1]
          exact hw
        · intro q hq
          rcases List.mem_cons.1 hq with rfl | hq
          · exact ⟨t, ht⟩
          · exact i2 q hq

theorem moved_indices (hb : Back P call fnText given fs fs') {ids is : List ℕ} (h : funcIndices fs ids = .ok is) :
    funcIndices fs' (ids.map (fun f => ((twin fs fs' f).map Owner.id).getD f)) = .ok is := by
  induction ids generalizing is with
  | nil => exact h
  | cons f ids ih =>
    rw [funcIndices] at h
    split at h
    · cases h
    · rename_i i hi
      split at h
      · cases h
      · rename_i js hjs
        cases h
        obtain ⟨o, o', -, -, h1, h2, -, -⟩ := back_index hb hi
        have e : ((twin fs fs' f).map Owner.id).getD f = o'.id := by
          unfold twin
          rw [hi, Option.bind_some, h1]
          rfl
        rw [List.map_cons, funcIndices, e, h2]
        simp only
        rw [ih hjs]

theorem choices {α β : Type} {Q : ℕ → α → β → Prop} (l : List α) (n : ℕ)
    (h : ∀ (i : ℕ) (a : α), l[i]? = some a → ∃ b, Q (n + i) a b) :
    ∃ ts : List β, ts.length = l.length ∧ ∀ (i : ℕ) (b : β), ts[i]? = some b → ∃ a, l[i]? = some a ∧ Q (n + i) a b := by
  induction l generalizing n with
  | nil => exact ⟨[], rfl, fun i b hb => by cases hb⟩
  | cons a l ih =>
    obtain ⟨b, hb⟩ := h 0 a rfl
    obtain ⟨ts, h1, h2⟩ := ih (n + 1) (fun i x hx => by
      have := h (i + 1) x (by simpa using hx)
      rwa [show n + (i + 1) = n + 1 + i by omega] at this)
    refine ⟨b :: ts, by simp [h1], ?_⟩
    intro i x hx
    cases i with
    | zero =>
      simp only [List.getElem?_cons_zero, Option.some.injEq] at hx
      subst hx
      exact ⟨a, rfl, hb⟩
    | succ i =>
      obtain ⟨a', e1, e2⟩ := h2 i x (by simpa using hx)
      refine ⟨a', by simpa using e1, ?_⟩
      rwa [show n + 1 + i = n + (i + 1) by omega] at e2

/-- A section that was written, by lines, and what reading makes of it. -/
theorem section_read (hb : Rebuilds P call fnText fs fs') (title name : List Char) (htitle : '\n' ∉ title) (hname : '\n' ∉ name)
    {bs : List (List Char)} (hw : fnSection fnText title ('#' :: ' ' :: (name ++ [' '])) fs none = .ok bs) :
    ∃ ts : List FnText, bs.flatMap splitLines = title :: secLines ('#' :: ' ' :: (name ++ [' '])) 0 ts ∧
      (∀ f ∈ ts, ∀ l ∈ fnKeyLines f, Plain l) ∧
      readFns P call [] (fnPieces name (secLines ('#' :: ' ' :: (name ++ [' '])) 0 ts)).2 = .ok fs' := by
  obtain ⟨ts, hlen, hts⟩ := choices (Q := fun i o f => ∃ r o', fnText fs o = .ok f ∧ FnReadable P f i r ∧
      (∀ e ∈ f.pairs, Plain e.1) ∧ fs'[i]? = some o' ∧ call r (fs'.take i) = .ok o') fs 0 (by
    intro i o ho
    obtain ⟨f, r, o', h1, h2, h3, h4, h5, -⟩ := hb.each i o ho
    rw [Nat.zero_add]
    exact ⟨f, r, o', h1, h2, h3, h4, h5⟩)
  have hplain : ∀ f ∈ ts, ∀ l ∈ fnKeyLines f, Plain l := by
    intro f hf
    obtain ⟨i, hi⟩ := List.getElem?_of_mem hf
    obtain ⟨o, -, r, o', -, h2, h3, -, -⟩ := hts i f hi
    exact fnKeyLines_plain h2 h3
  refine ⟨ts, ?_, hplain, ?_⟩
  · unfold fnSection at hw
    simp only [Except.map] at hw
    split at hw
    · cases hw
    · rename_i xs hxs
      cases hw
      have ht : splitLines title = [title] := splitLines_single _ htitle
      rw [List.flatMap_cons, ht, fnLines_lines _ _ fs 0 fs ts _ xs hxs]
      · rfl
      · simp only [List.mem_cons, List.mem_append, not_or]
        exact ⟨by decide, by decide, hname, by decide, by simp⟩
      · rw [List.forall₂_iff_get]
        refine ⟨hlen.symm, ?_⟩
        intro i h1 h2
        obtain ⟨o, ho, r, o', h3, h4, -⟩ := hts i (ts.get ⟨i, h2⟩) (by simp)
        have e : fs.get ⟨i, h1⟩ = o := by
          rw [List.getElem?_eq_getElem h1] at ho
          injection ho
        rw [e]
        exact ⟨h3, fnKeyLines_line h4⟩
  · rw [fnPieces_secLines name 0 ts hplain]
    refine readFns_pieces fs' ts [] ?_ rfl ?_
    · rw [List.length_nil, Nat.zero_add, hlen, hb.length]
    · intro i f hf
      obtain ⟨o, -, r, o', -, h2, -, h4, h5⟩ := hts i f hf
      rw [List.length_nil]
      rw [Nat.zero_add] at *
      exact ⟨r, o', h2, h4, h5⟩

end

/-! ### Markers -/

theorem numbered_other (i : ℕ) :
    (∀ n ∈ ["start data".toList, "ModelPeaks".toList, "BaselineObject".toList, "PeakFunctions".toList, "BaselineFunctions".toList],
      afterMarker n ("# BaselineFunction ".toList ++ reprNat i) = none) ∧
    (∀ n ∈ ["start data".toList, "ModelPeaks".toList, "BaselineObject".toList, "PeakFunctions".toList, "BaselineFunctions".toList],
      afterMarker n ("# PeakFunction ".toList ++ reprNat i) = none) := by
  constructor <;>
  · intro n hn
    simp only [List.mem_cons, List.not_mem_nil, or_false] at hn
    rcases hn with rfl | rfl | rfl | rfl | rfl <;> rfl

theorem secLines_other {label : List Char} {n : List Char} (hl : ∀ i, afterMarker n (label ++ reprNat i) = none) {i : ℕ} {ts : List FnText}
    (hp : ∀ f ∈ ts, ∀ l ∈ fnKeyLines f, Plain l) : ∀ l ∈ secLines label i ts, afterMarker n l = none := by
  intro l hm
  rcases secLines_mem hm with ⟨j, rfl⟩ | rfl | ⟨f, hf, hm⟩
  · exact hl j
  · rfl
  · exact afterMarker_plain _ (hp f hf l hm)

/-- The lines of a section that may be there, and what reading makes of them: for a list that is given there is none. -/
theorem section_cut {P : Python K V} {call : FnRead V → List (Owner K) → Res (Owner K)} {fnText : List (Owner K) → Owner K → Res FnText}
    {given : Option (List (Owner K))} {fs fs' : List (Owner K)} (hb : Back P call fnText given fs fs')
    (hgiven : ∀ l, given = some l → l = fs) (title plural name : List Char)
    (htitle : '\n' ∉ title) (hname : '\n' ∉ name) (hmark : afterMarker plural title = some [])
    {bs : List (List Char)} (hw : fnSection fnText title ('#' :: ' ' :: (name ++ [' '])) fs given = .ok bs) :
    ∃ S : List (List Char), bs.flatMap splitLines = S ∧
      (∀ n, afterMarker n title = none → (∀ i, afterMarker n ('#' :: ' ' :: (name ++ [' ']) ++ reprNat i) = none) →
        ∀ l ∈ S, afterMarker n l = none) ∧
      ∀ before : List (List Char), (∀ l ∈ before, afterMarker plural l = none) →
        (cutFns plural name given (before ++ S)).1 = before ∧
        listOfFns P call given (cutFns plural name given (before ++ S)).2 = .ok fs' := by
  unfold Back at hb
  cases given with
  | some l =>
    have hl := hgiven l rfl
    subst hl
    subst hb
    cases hw
    refine ⟨[], rfl, (by intro n _ _ l hl; cases hl), ?_⟩
    intro before _
    rw [List.append_nil]
    exact ⟨rfl, rfl⟩
  | none =>
    obtain ⟨ts, h1, h2, h3⟩ := section_read hb title name htitle hname hw
    refine ⟨_, h1, ?_, ?_⟩
    · intro n hn hnum l hl
      rcases List.mem_cons.1 hl with rfl | hl
      · exact hn
      · exact secLines_other hnum h2 l hl
    · intro before hbef
      have hc := cut_append plural title [] before (secLines ('#' :: ' ' :: (name ++ [' '])) 0 ts) hbef hmark
      unfold cutFns
      simp only
      rw [hc]
      refine ⟨rfl, ?_⟩
      simp only [List.drop_succ_cons, List.drop_zero]
      unfold listOfFns
      simp only
      exact h3

/-! ### The cluster with the functions that were read -/

section

variable {P : Python K V} {call : FnRead V → List (Owner K) → Res (Owner K)} {indices : V → Res (List ℤ)}
  {float : List Char → Option K} {fmt : K → List Char} {g : K → K} {fnText : List (Owner K) → Owner K → Res FnText}
  {pfk blfk : Option (List (Owner K))} {c : Mc K} {pf pf' blf blf' : List (Owner K)} {slice : V}

theorem moved_base (hb2 : Back P call fnText blfk blf blf') {b : Option (Part K)} {bt : List Char}
    (hw : baselineText P blf b = .ok bt) : baselineText P blf' (b.map (moved blf blf')) = .ok bt := by
  cases b with
  | none => exact hw
  | some b => exact moved_text hb2 hw

theorem moved_funcs (hb1 : Back P call fnText pfk pf pf') {fs : Option (List ℕ)} {ft : List Char}
    (hw : funcsText pf fs = .ok ft) :
    funcsText pf' (fs.map (List.map (fun f => ((twin pf pf' f).map Owner.id).getD f))) = .ok ft := by
  cases fs with
  | none => exact hw
  | some fs =>
    unfold funcsText at hw ⊢
    simp only [Option.map_some] at hw ⊢
    cases hi : funcIndices pf fs with
    | error e => rw [hi] at hw; cases hw
    | ok is =>
      rw [hi] at hw
      rw [moved_indices hb1 hi]
      exact hw

theorem moved_cluster (hb1 : Back P call fnText pfk pf pf') (hb2 : Back P call fnText blfk blf blf')
    (h : McReadable P indices float fmt g c pf blf slice) {ft bt : List Char} {pt : List (List Char)}
    (hft : funcsText pf c.funcs = .ok ft) (hbt : baselineText P blf c.baseline = .ok bt) (hpt : peaksText P pf c.model = .ok pt) :
    McReadable P indices float fmt g (movedMc pf pf' blf blf' c) pf' blf' slice := by
  constructor
  · intro q hq
    obtain ⟨p, hp, rfl⟩ := List.mem_map.1 hq
    obtain ⟨t, ht⟩ := (moved_peaks hb1 hpt).2 p hp
    exact moved_readable hb1 ht (h.peaks p hp)
  · intro q hq
    unfold movedMc at hq
    simp only at hq
    cases hb : c.baseline with
    | none => rw [hb] at hq; cases hq
    | some b =>
      rw [hb] at hq hbt
      cases hq
      exact moved_readable hb2 hbt (h.base b hb)
  · intro hn
    unfold movedMc at hn
    simp only [Option.map_eq_none_iff] at hn
    exact h.noFuncs hn
  · intro fs is hfs his
    unfold movedMc at hfs
    simp only at hfs
    cases hc : c.funcs with
    | none => rw [hc] at hfs; cases hfs
    | some fs0 =>
      rw [hc] at hfs hft
      cases hfs
      unfold funcsText at hft
      simp only at hft
      cases hi : funcIndices pf fs0 with
      | error e => rw [hi] at hft; cases hft
      | ok js =>
        rw [moved_indices hb1 hi] at his
        cases his
        exact h.funcs fs0 is hc hi
  · exact h.method
  · exact h.slice
  · exact h.sliceLine
  · exact h.number
  · exact h.lengths

/-- What was written, by lines. -/
theorem mcWritestrKw_lines {safe : List ℕ → List (Owner K)} (h : McReadable P indices float fmt g c pf blf slice)
    (hpf : pfToWrite safe c pfk = .ok pf) (hblf : blfToWrite safe c blfk = .ok blf) {text : List Char}
    (hw : mcWritestrKw P fmt safe fnText pfk blfk c = .ok text) :
    ∃ ft bt pt bs ps, funcsText pf c.funcs = .ok ft ∧ baselineText P blf c.baseline = .ok bt ∧ peaksText P pf c.model = .ok pt ∧
      fnSection fnText "## BaselineFunctions".toList "# BaselineFunction ".toList blf blfk = .ok bs ∧
      fnSection fnText "## PeakFunctions".toList "# PeakFunction ".toList pf pfk = .ok ps ∧
      splitLines text = headerLines c ft ++ bs.flatMap splitLines ++ ps.flatMap splitLines ++ ("# BaselineObject".toList ::
        (baseLines P blf c.baseline ++ "## ModelPeaks".toList :: (peakLines P pf c.model ++ "### start data".toList ::
        "#L r y dy".toList :: ((triples c.r c.y c.err).map (rowText fmt) ++ [[]])))) := by
  unfold mcWritestrKw at hw
  rw [hpf] at hw
  simp only at hw
  rw [hblf] at hw
  simp only at hw
  split at hw
  · cases hw
  rename_i ft hft
  split at hw
  · cases hw
  rename_i bs hbs
  split at hw
  · cases hw
  rename_i ps hps
  split at hw
  · cases hw
  rename_i bt hbt
  split at hw
  · cases hw
  rename_i pt hpt
  have hdt : dataText fmt c.r c.y c.err = .ok ((triples c.r c.y c.err).map (rowText fmt)) := by
    rw [dataText_ok fmt _ _ _ h.lengths.1 h.lengths.2]
    congr 1
  rw [hdt] at hw
  simp only at hw
  injection hw with hw
  refine ⟨ft, bt, pt, bs, ps, hft, hbt, hpt, hbs, hps, ?_⟩
  rw [← hw]
  generalize hD : (triples c.r c.y c.err).map (rowText fmt) = D
  have hDl : ∀ l ∈ D, '\n' ∉ l := by
    intro l hl
    rw [← hD] at hl
    obtain ⟨row, hrow, rfl⟩ := List.mem_map.1 hl
    obtain ⟨a, b, d, rfl, ha, hb, hd⟩ := triples_mem hrow
    have nl : ∀ x ∈ c.r ++ c.y ++ c.err, '\n' ∉ fmt x := fun x hx hm =>
      absurd ((h.number x hx).2.1 _ hm).1 (by decide)
    rw [rowText]
    simp only [List.mem_append, List.mem_cons, not_or]
    exact ⟨nl a (by simp [ha]), by decide, nl b (by simp [hb]), by decide, nl d (by simp [hd])⟩
  have e : ∀ t : List Char, t ++ ['\n'] = t ++ '\n' :: [] := fun _ => rfl
  have hmarks : splitLines "# BaselineObject".toList = ["# BaselineObject".toList] ∧
    splitLines "## ModelPeaks".toList = ["## ModelPeaks".toList] ∧
    splitLines "### start data".toList = ["### start data".toList] ∧
    splitLines "#L r y dy".toList = ["#L r y dy".toList] := by decide
  have h1 : splitLines ("peak_funcs=".toList ++ ft) = ["peak_funcs=".toList ++ ft] := by
    apply splitLines_single
    rw [List.mem_append, not_or]
    exact ⟨by decide, (readFuncs_spec h hft []).1⟩
  have h2 : splitLines ("ModelEvaluator=".toList ++ c.method.getD "None".toList) =
      ["ModelEvaluator=".toList ++ c.method.getD "None".toList] := by
    apply splitLines_single
    rw [List.mem_append, not_or]
    exact ⟨by decide, fun hm => absurd (method_line h _ hm) (by decide)⟩
  have h3 : splitLines ("slice=".toList ++ c.slice) = ["slice=".toList ++ c.slice] := by
    apply splitLines_single
    rw [List.mem_append, not_or]
    exact ⟨by decide, h.sliceLine.1⟩
  rw [e, splitLines_append, splitLines_join _ (by simp)]
  simp only [List.flatMap_append, List.flatMap_cons, List.flatMap_nil, h1, h2, h3, hmarks.1, hmarks.2.1, hmarks.2.2.1,
    hmarks.2.2.2, (baseline_lines h.base hbt).1, peaksText_lines h.peaks hpt, flatMap_lines D hDl]
  have e0 : splitLines [] = [[]] := rfl
  rw [e0]
  unfold headerLines
  simp only [List.append_assoc, List.cons_append, List.nil_append]

/-- What is read from what was written, up to the choice of the evaluator and the data. -/
theorem mcFactoryKw_lines {safe : List ℕ → List (Owner K)} (h : McReadable P indices float fmt g c pf blf slice)
    (hpf : pfToWrite safe c pfk = .ok pf) (hblf : blfToWrite safe c blfk = .ok blf)
    (hb1 : Back P call fnText pfk pf pf') (hb2 : Back P call fnText blfk blf blf') (attr : List Char → Option E) {text : List Char}
    (hw : mcWritestrKw P fmt safe fnText pfk blfk c = .ok text) :
    ∃ os, SameFuncs pf' (movedMc pf pf' blf blf' c).funcs os ∧
      mcFactoryKw P call indices float attr pfk blfk text =
        match attr (c.method.getD "None".toList) with
        | none => .error .attribute
        | some e => if c.r = [] then .error .dataFormat
          else .ok ⟨c.model.map (moved pf pf'), c.baseline.map (moved blf blf'), some (c.r.map g), some (c.y.map g), some (c.err.map g), slice, e, os⟩ := by
  obtain ⟨ft, bt, pt, bs, ps, hft, hbt, hpt, hbs, hps, hl⟩ := mcWritestrKw_lines h hpf hblf hw
  have h' := moved_cluster hb1 hb2 h hft hbt hpt
  have hft' := moved_funcs hb1 hft
  have hbt' := moved_base hb2 hbt
  have hpt' := (moved_peaks hb1 hpt).1
  obtain ⟨os, hos, hr⟩ := mcRest_lines h' attr hft' hbt' hpt'
  refine ⟨os, hos, ?_⟩
  obtain ⟨hbl, hbp, -⟩ := baseline_lines h.base hbt
  have ebase : baseLines P blf' (c.baseline.map (moved blf blf')) = baseLines P blf c.baseline :=
    (baseline_lines h'.base hbt').1.symm.trans hbl
  have epeaks : peakLines P pf' (c.model.map (moved pf pf')) = peakLines P pf c.model :=
    (peaksText_lines h'.peaks hpt').symm.trans (peaksText_lines h.peaks hpt)
  have gpf : ∀ l, pfk = some l → l = pf := by
    intro l hl'
    rw [hl'] at hpf
    cases hpf
    rfl
  have gblf : ∀ l, blfk = some l → l = blf := by
    intro l hl'
    rw [hl'] at hblf
    cases hblf
    rfl
  obtain ⟨B, hB, hBo, hBc⟩ := section_cut hb2 gblf "## BaselineFunctions".toList "BaselineFunctions".toList "BaselineFunction".toList
    (by decide) (by decide) (by decide) hbs
  obtain ⟨S, hS, hSo, hSc⟩ := section_cut hb1 gpf "## PeakFunctions".toList "PeakFunctions".toList "PeakFunction".toList
    (by decide) (by decide) (by decide) hps
  rw [hB, hS] at hl
  have hBn : ∀ n ∈ ["start data".toList, "ModelPeaks".toList, "BaselineObject".toList, "PeakFunctions".toList],
      ∀ l ∈ B, afterMarker n l = none := by
    intro n hn
    refine hBo n ?_ (fun i => (numbered_other i).1 n ?_)
    · revert n; decide
    · revert n; decide
  have hSn : ∀ n ∈ ["start data".toList, "ModelPeaks".toList, "BaselineObject".toList], ∀ l ∈ S, afterMarker n l = none := by
    intro n hn
    refine hSo n ?_ (fun i => (numbered_other i).2 n ?_)
    · revert n; decide
    · revert n; decide
  have hHn : ∀ n, ∀ l ∈ headerLines c ft, afterMarker n l = none := fun n l hm => afterMarker_plain n (headerLines_plain c ft l hm)
  have hc1 : cut "start data".toList (splitLines text) = some (headerLines c ft ++ B ++ S ++ ("# BaselineObject".toList ::
      (baseLines P blf c.baseline ++ "## ModelPeaks".toList :: peakLines P pf c.model)),
      [] :: "#L r y dy".toList :: ((triples c.r c.y c.err).map (rowText fmt) ++ [[]])) := by
    have e : splitLines text = (headerLines c ft ++ B ++ S ++ ("# BaselineObject".toList ::
        (baseLines P blf c.baseline ++ "## ModelPeaks".toList :: peakLines P pf c.model))) ++ "### start data".toList ::
        "#L r y dy".toList :: ((triples c.r c.y c.err).map (rowText fmt) ++ [[]]) := by
      rw [hl]; simp
    rw [e]
    refine cut_append _ _ _ _ _ ?_ (by decide)
    intro l hm
    rcases List.mem_append.1 hm with hm | hm
    · rcases List.mem_append.1 hm with hm | hm
      · rcases List.mem_append.1 hm with hm | hm
        · exact hHn _ l hm
        · exact hBn _ (by simp) l hm
      · exact hSn _ (by simp) l hm
    rcases List.mem_cons.1 hm with rfl | hm
    · decide
    rcases List.mem_append.1 hm with hm | hm
    · exact afterMarker_plain _ (hbp l hm)
    rcases List.mem_cons.1 hm with rfl | hm
    · decide
    · unfold peakLines at hm
      obtain ⟨p, -, hm⟩ := List.mem_flatMap.1 hm
      rcases List.mem_cons.1 hm with rfl | hm
      · decide
      · exact afterMarker_plain _ (linesOf_plain P pf p l hm)
  have hsec : mcSections (headerLines c ft ++ B ++ S ++ ("# BaselineObject".toList ::
      (baseLines P blf c.baseline ++ "## ModelPeaks".toList :: peakLines P pf c.model))) =
      (headerLines c ft ++ B ++ S, some ([] :: baseLines P blf c.baseline), some (peakLines P pf c.model)) := by
    have e : headerLines c ft ++ B ++ S ++ ("# BaselineObject".toList ::
        (baseLines P blf c.baseline ++ "## ModelPeaks".toList :: peakLines P pf c.model)) =
        (headerLines c ft ++ B ++ S ++ ("# BaselineObject".toList :: baseLines P blf c.baseline)) ++
          "## ModelPeaks".toList :: peakLines P pf c.model := by simp
    have c2 := cut_append "ModelPeaks".toList "## ModelPeaks".toList [] (headerLines c ft ++ B ++ S ++ ("# BaselineObject".toList ::
      baseLines P blf c.baseline)) (peakLines P pf c.model) (by
        intro l hm
        rcases List.mem_append.1 hm with hm | hm
        · rcases List.mem_append.1 hm with hm | hm
          · rcases List.mem_append.1 hm with hm | hm
            · exact hHn _ l hm
            · exact hBn _ (by simp) l hm
          · exact hSn _ (by simp) l hm
        rcases List.mem_cons.1 hm with rfl | hm
        · decide
        · exact afterMarker_plain _ (hbp l hm)) (by decide)
    have c3 := cut_append "BaselineObject".toList "# BaselineObject".toList [] (headerLines c ft ++ B ++ S)
      (baseLines P blf c.baseline) (by
        intro l hm
        rcases List.mem_append.1 hm with hm | hm
        · rcases List.mem_append.1 hm with hm | hm
          · exact hHn _ l hm
          · exact hBn _ (by simp) l hm
        · exact hSn _ (by simp) l hm) (by decide)
    rw [e]
    unfold mcSections
    rw [c2]
    simp only
    rw [c3]
    rfl
  obtain ⟨d1, d2⟩ := hSc (headerLines c ft ++ B) (by
    intro l hm
    rcases List.mem_append.1 hm with hm | hm
    · exact hHn _ l hm
    · exact hBn _ (by simp) l hm)
  obtain ⟨d3, d4⟩ := hBc (headerLines c ft) (hHn _)
  unfold mcFactoryKw
  rw [hc1]
  simp only
  rw [hsec]
  simp only
  rw [d1, d4, d3, d2]
  simp only
  rw [← ebase, ← epeaks]
  exact hr

end

end Verif.Text
