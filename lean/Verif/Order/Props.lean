import Verif.Order.Lemmas
import Verif.Repeat.Props

/-!
# Property C108: the order of the initial peaks does not matter

## Specification
-/

set_option linter.unusedSectionVars false

namespace Verif.Parts.Order

open Verif.Py Verif.PeakList Verif.Extraction Verif.Pdf Verif.Parts.Extract Verif.Parts.ModelCluster Verif.Parts.PdfExtract

section

variable {K : Type} [Field K] [LinearOrder K] [IsStrictOrderedRing K]

/-- The same objects, but with the peaks of each list in any order; no two peaks of a list at the same position. -/
structure Reordered (H H' : Heap K) : Prop where
  base : H'.base = H.base
  funcs : H'.funcs = H.funcs
  peaks : ∀ i, (H.peaks i).Perm (H'.peaks i)
  apart : ∀ i, ((H.peaks i).map pos).Nodup

/-- The model that is found before the initial peaks are put back — peakextraction.py:844-1338. -/
def beforePeaks (W : World K) (J : Job K) (rec : Deeper K) : Res (Cluster K) := do
  let y0 := List.zipWith (fun a b => b - W.val J.bl a - valueAt W.val J.ip a) J.x J.y
  let y := List.zipWith (fun a b => b - valueAt W.val J.ip a) J.x J.y
  let dc ← (match Cluster.mk J.x y0 J.cres (W.as y0) with
    | .error o => .error (errOf o) | .ok s => .ok s : Res (Cluster.State K))
  let first ← newCluster W J [] (some J.bl) J.x y J.dy (some ⟨some (Cluster.cut dc 0).1, (Cluster.cut dc 0).2⟩)
  let mp ← maxOf (J.funcs.map (W.minpoints J.method))
  let ms ← mainLoop W J rec y mp J.x.length dc [first]
  item ms 0

/-- No peak is found exactly where an initial peak is, nor two at the same position: what `extract_single` finds with the variables `s`. -/
def Clear (W : World K) (H : Heap K) (D : Defaults K) (s : PX K) : Prop :=
  ∀ t J c, defaultvars D s = (.ok (), t) → jobOf H t = .ok J → beforePeaks W J (Repeat.below W H D t) = .ok c → ((J.ip ++ c.model).map pos).Nodup

/-! ## Lemmas -/

theorem search_split (W : World K) (J : Job K) (rec : Deeper K) (top : Bool) : search W J rec top = beforePeaks W J rec >>= finish W J top := by
  unfold search searchN beforePeaks
  simp only [bind_assoc]
  rfl

theorem beforePeaks_ip {W : World K} {J : Job K} {rec : Deeper K} {ip : List (Part K)} (h : J.ip.Perm ip) :
    beforePeaks W { J with ip := ip } rec = beforePeaks W J rec := by
  unfold beforePeaks
  simp only [newCluster_ip, mainLoop_ip, valueAt_perm h]

theorem replacepeaks_front (as : List K → List ℕ) (m new : List (Part K)) : replacepeaks as m new 0 0 = (.ok (), sort as false pos (new ++ m)) := by
  unfold replacepeaks
  have hb : bounds m.length (some (0, 0)) = (0, 0) := by simp [bounds]
  rw [hb]
  rw [if_neg (by simp [getSlice, hb])]
  simp

theorem finish_ip {W : World K} {J : Job K} {top : Bool} {c : Cluster K} {ip : List (Part K)} (h : J.ip.Perm ip)
    (hs : sort W.as false pos (J.ip ++ c.model) = sort W.as false pos (ip ++ c.model)) : finish W { J with ip := ip } top c = finish W J top c := by
  unfold finish addexternal withPeaks
  simp only [replacepeaks_front, pruned_ip, valueAt_perm h, hs]

theorem search_ip {W : World K} {J : Job K} {rec : Deeper K} {top : Bool} {ip : List (Part K)} (h : J.ip.Perm ip)
    (hs : ∀ c, beforePeaks W J rec = .ok c → sort W.as false pos (J.ip ++ c.model) = sort W.as false pos (ip ++ c.model)) :
    search W { J with ip := ip } rec top = search W J rec top := by
  rw [search_split, search_split, beforePeaks_ip h]
  cases hc : beforePeaks W J rec with
  | error e => rfl
  | ok c => exact finish_ip h (hs c hc)

variable {W : World K} {H H' : Heap K} {D : Defaults K}

theorem jobOf_reordered (hH : Reordered H H') (s : PX K) :
    (∀ e, jobOf H s = .error e → jobOf H' s = .error e) ∧
    ∀ J, jobOf H s = .ok J → ∃ i, s.initialPeaks = some i ∧ J.ip = H.peaks i ∧ jobOf H' s = .ok { J with ip := H'.peaks i } := by
  constructor
  · intro e h
    unfold jobOf at h ⊢
    split
    · rename_i x y e' a b bl ip cres em pf h1 h2 h3 h4 h5 h6 h7 h8 h9
      simp only [h1, h2, h3, h4, h5, h6, h7, h8, h9] at h
      cases hg : getrangeslice x a b with
      | error e => rw [hg] at h; exact h
      | ok q => rw [hg] at h; cases h
    · rename_i hno
      split at h
      · rename_i x y e' a b bl ip cres em pf h1 h2 h3 h4 h5 h6 h7 h8 h9
        exact (hno x y e' a b bl ip cres em pf h1 h2 h3 h4 h5 h6 h7 h8 h9).elim
      · exact h
  · intro J h
    obtain ⟨x, y, e, a, b, bl, ip, cres, em, pf, lo, hi, h1, h2, h3, h4, h5, h6, h7, h8, h9, hg, rfl⟩ := jobOf_ok h
    refine ⟨ip, h6, rfl, ?_⟩
    unfold jobOf
    simp only [h1, h2, h3, h4, h5, h6, h7, h8, h9, hg, hH.base, hH.funcs]

theorem subSearch_none {s t : PX K} {r y e : List K} (h : subSearch D s r y e = .ok t) : t.initialPeaks = some D.noPeaks := by
  unfold subSearch at h
  split at h
  · cases h
  · rename_i u hu
    have hip : u.initialPeaks = none := by
      unfold setdata at hu
      split at hu
      · cases hu
      · simp only at hu
        split at hu
        · cases hu
        · simp only [Prod.mk.injEq, true_and] at hu
          rw [← hu]
    split at h
    · cases h
    · rename_i t' heq
      simp only [Except.ok.injEq] at h
      subst h
      unfold setvars at heq
      have hl : setLoop [.baseline s.baseline, .cres s.cres, .pf s.pf, .error_method s.errorMethod] u = (.ok (),
          { u with baseline := s.baseline, cres := s.cres, pf := s.pf, errorMethod := s.errorMethod }) := rfl
      rw [hl] at heq
      have := (defaulted (by exact heq)).ip
      rw [this]
      simp only [hip, Option.getD_none]

/-- Recursive searches have no initial peaks. -/
theorem deeper_same (hH : Reordered H H') (hN : H.peaks D.noPeaks = []) : ∀ (n depth : ℕ) (s : PX K), s.initialPeaks = some D.noPeaks →
    extractSingle W H' D n depth s = extractSingle W H D n depth s := by
  intro n
  induction n with
  | zero => intros; rfl
  | succ n ih =>
    intro depth s hs
    unfold extractSingle
    cases hd : defaultvars D s with
    | mk u t =>
      cases u with
      | error e => rfl
      | ok u =>
        have ht : t.initialPeaks = some D.noPeaks := by
          rw [(defaulted hd).ip, hs]; rfl
        simp only
        have hjob : jobOf H' t = jobOf H t := by
          cases hj : jobOf H t with
          | error e => exact (jobOf_reordered hH t).1 e hj
          | ok J =>
            obtain ⟨i, h1, h2, h3⟩ := (jobOf_reordered hH t).2 J hj
            rw [ht, Option.some.injEq] at h1
            subst h1
            have h0 : H'.peaks D.noPeaks = [] := by
              have := hH.peaks D.noPeaks
              rw [hN] at this
              exact this.nil_eq.symm
            rw [h3, h0, ← hN, ← h2]
        rw [hjob]
        cases hj : jobOf H t with
        | error e => rfl
        | ok J =>
          simp only
          congr 1
          by_cases hd3 : depth < 3
          · rw [if_pos hd3, if_pos hd3]
            congr 1
            funext r y e
            cases hss : subSearch D t r y e with
            | error e => rfl
            | ok t' => exact ih (depth + 1) t' (subSearch_none hss)
          · rw [if_neg hd3, if_neg hd3]

theorem below_same (hH : Reordered H H') (hN : H.peaks D.noPeaks = []) (t : PX K) : Repeat.below W H' D t = Repeat.below W H D t := by
  unfold Repeat.below
  congr 1
  funext r y e
  cases hss : subSearch D t r y e with
  | error e => rfl
  | ok t' => exact deeper_same hH hN 2 2 t' (subSearch_none hss)

theorem single_below (s : PX K) : extractSingle W H D 3 1 s =
    match defaultvars D s with
    | (.error e, _) => .error e
    | (.ok (), t) =>
      match jobOf H t with
      | .error e => .error e
      | .ok J => search W J (Repeat.below W H D t) true := by
  rw [extractSingle]
  rfl

/-! ## Theorems -/

/-- **C108.** `extract_single` finds the same, whatever the order of the initial peaks (at different positions): with a stable sort, or if no peak is
found exactly where another is. -/
theorem c108_single (hS : Sane W) (hH : Reordered H H') (hN : H.peaks D.noPeaks = []) (s : PX K) (hq : Stable W.as ∨ Clear W H D s) :
    extractSingle W H' D 3 1 s = extractSingle W H D 3 1 s := by
  rw [single_below, single_below]
  cases hd : defaultvars D s with
  | mk u t =>
    cases u with
    | error e => rfl
    | ok u =>
      simp only
      cases hj : jobOf H t with
      | error e => rw [(jobOf_reordered hH t).1 e hj]
      | ok J =>
        obtain ⟨i, h1, h2, h3⟩ := (jobOf_reordered hH t).2 J hj
        rw [h3]
        simp only
        rw [below_same hH hN]
        have hp : J.ip.Perm (H'.peaks i) := by rw [h2]; exact hH.peaks i
        refine search_ip hp ?_
        intro c hc
        rcases hq with hq | hq
        · exact sort_perm_stable hS.sorts hq hp pos (by rw [h2]; exact hH.apart i) c.model
        · exact sort_perm_nodup hS.sorts (hp.append_right _) pos (hq t J c hd hj hc)

/-- What `extract` finds in the initial extraction. -/
def ClearPdf (W : World K) (S : Sampler K) (D : Defaults K) (s : PPX K) (H : Heap K) : Prop :=
  ∀ P g t, complete s = .ok P → firstGrid S D s P = .ok g → innerVars D P g = .ok t → Clear W H D t

theorem refine_same (hH : Reordered H H') {S : Sampler K} (s : PPX K) (P : Par K) (n : ℕ) (g : Grid K) (c : Cluster K) :
    refine W H' S D s P n g c = refine W H S D s P n g c := by
  have hj : ∀ g, jobFor H' P g = jobFor H P g := by
    intro g
    unfold jobFor
    rw [hH.base, hH.funcs]
  have hpass : ∀ bl dr ext, pass W H' S D s P bl dr ext = pass W H S D s P bl dr ext := by
    intro bl dr ext
    unfold pass
    simp only [hj]
  have hloop : ∀ n bl w ext, nyquistPasses W H' S D s P bl w n ext = nyquistPasses W H S D s P bl w n ext := by
    intro n
    induction n with
    | zero => intros; rfl
    | succ n ih =>
      intro bl w ext
      unfold nyquistPasses
      simp only [hpass, ih]
  unfold refine plain
  simp only [hj, hloop]

/-- **C108.** `PDFPeakExtraction.extract` with the initial peaks in another order: the same exception, or the same result. -/
theorem c108_order (hS : Sane W) (hH : Reordered H H') (hN : H.peaks D.noPeaks = []) {S : Sampler K} (n : ℕ) (o : PObj K) (ho : o.heap = H)
    (hq : Stable W.as ∨ ClearPdf W S D (pdefaultvars S.pi D o.vars).2 H) :
    PdfExtract.extract W S D n { o with heap := H' } = (PdfExtract.extract W S D n o).map (fun r => (r.1, { r.2 with heap := H' })) := by
  subst ho
  unfold PdfExtract.extract
  cases hd : pdefaultvars S.pi D o.vars with
  | mk u s =>
    rw [hd] at hq
    simp only at hq
    cases u with
    | error e => rfl
    | ok u =>
      simp only
      have hb : begun W H' S D s = begun W o.heap S D s := by
        unfold begun
        cases hP : complete s with
        | error e => simp only [bind, Except.bind]
        | ok P =>
          cases hg : firstGrid S D s P with
          | error e => simp only [bind, Except.bind, hg]
          | ok g =>
            cases ht : innerVars D P g with
            | error e => simp only [bind, Except.bind, hg, ht]
            | ok t =>
              simp only [bind, Except.bind, hg, ht]
              rw [c108_single hS hH hN t (hq.imp id (fun h => h P g t hP hg ht))]
      have he : extracted W H' S D s n = extracted W o.heap S D s n := by
        unfold extracted
        rw [hb]
        cases begun W o.heap S D s with
        | error e => rfl
        | ok q =>
          obtain ⟨P, g, c⟩ := q
          simp only [refine_same hH]
      rw [he, Option.map_map]
      congr 1
      funext r
      cases r <;> rfl

/-! ## Instances -/

theorem orderedInsert_stable {r : ℕ → ℕ → Prop} [DecidableRel r] (htot : ∀ a b, r a b ∨ r b a) {a : ℕ} : ∀ {l : List ℕ},
    l.Pairwise (fun i j => r j i → i < j) → (∀ b ∈ l, a < b) → (l.orderedInsert r a).Pairwise (fun i j => r j i → i < j)
  | [], _, _ => by simp
  | b :: l, hp, hlt => by
    rw [List.orderedInsert]
    split
    · exact List.pairwise_cons.2 ⟨fun c hc _ => hlt c hc, hp⟩
    · rename_i hab
      obtain ⟨h1, h2⟩ := List.pairwise_cons.1 hp
      refine List.pairwise_cons.2 ⟨?_, orderedInsert_stable htot h2 (fun c hc => hlt c (List.mem_cons_of_mem _ hc))⟩
      intro c hc hcb
      rcases List.mem_cons.1 ((List.perm_orderedInsert r a l).subset hc) with rfl | hc
      · exact absurd hcb hab
      · exact h1 c hc hcb

theorem insertionSort_stable {r : ℕ → ℕ → Prop} [DecidableRel r] (htot : ∀ a b, r a b ∨ r b a) : ∀ {l : List ℕ},
    l.Pairwise (· < ·) → (l.insertionSort r).Pairwise (fun i j => r j i → i < j)
  | [], _ => by simp
  | a :: l, h => by
    obtain ⟨h1, h2⟩ := List.pairwise_cons.1 h
    rw [List.insertionSort]
    exact orderedInsert_stable htot (insertionSort_stable htot h2) (fun b hb => h1 b ((List.perm_insertionSort r l).subset hb))

/-- Insertion sort (which numpy uses for up to 16 elements) is stable. -/
theorem mergeAs_stable : Stable (mergeAs (K := K)) := by
  intro keys
  unfold mergeAs
  refine (insertionSort_stable (fun a b => le_total _ _) (List.pairwise_lt_range)).imp ?_
  intro i j h hij
  refine h ?_
  rw [List.getD_eq_getElem?_getD, List.getD_eq_getElem?_getD, hij]

end

/-- Two initial peaks, in two orders. -/
def pairHeap : Heap ℚ := { dotHeap with peaks := fun i => if i = 1 then [dot 9 2 5 false, dot 9 4 2 true] else [] }
def swappedHeap : Heap ℚ := { dotHeap with peaks := fun i => if i = 1 then [dot 9 4 2 true, dot 9 2 5 false] else [] }

theorem pair_reordered : Reordered pairHeap swappedHeap := by
  refine ⟨rfl, rfl, ?_, ?_⟩
  · intro i
    show (if i = 1 then _ else _ : List (Part ℚ)).Perm (if i = 1 then _ else _)
    split
    · exact List.Perm.swap _ _ _
    · exact .nil
  · intro i
    show ((if i = 1 then _ else _ : List (Part ℚ)).map pos).Nodup
    split
    · decide +kernel
    · exact List.nodup_nil

example : extractSingle dotWorld swappedHeap dotDef 3 1 (dotVars (some 1) none) = extractSingle dotWorld pairHeap dotDef 3 1 (dotVars (some 1) none) :=
  c108_single dotWorld_sane pair_reordered rfl _ (.inl mergeAs_stable)

/-- Those two and the peaks at 1 and 6 that are found. -/
example : Extract.shown (extractSingle dotWorld pairHeap dotDef 3 1 (dotVars (some 1) none)) = some [(7, [1, 3]), (9, [2, 5]), (9, [4, 2]), (7, [6, 1])] := by
  decide +kernel

/-- The object of `extract` with these initial peaks; qmax 0. -/
def pairObj : PObj ℚ := ⟨{ base := dotVars (some 1) none, qmax := some 0, supersample := some 1 }, pairHeap, none, none⟩

example := c108_order dotWorld_sane pair_reordered rfl (D := dotDef) (S := linSampler) 5 pairObj rfl (.inl mergeAs_stable)

example : seen (PdfExtract.extract dotWorld linSampler dotDef 5 pairObj) =
    some ([(7, [1, 3]), (9, [2, 5]), (9, [4, 2]), (7, [6, 1])], [0, 1, 2, 3, 4, 5, 6]) := by
  decide +kernel

end Verif.Parts.Order
