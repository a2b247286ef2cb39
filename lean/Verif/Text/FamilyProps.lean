import Verif.Text.FamilyModel

/-!
# C113: a cluster and its functions, written and read without any list of functions
-/

namespace Verif.Text

open Verif.Py Verif.Parts Verif.Function

set_option linter.unusedSectionVars false

variable {K V E : Type}

section

variable {F : Family} {mk : Fn FnData → Owner K} {set : List ℕ → List ℕ}

/-- Every function of a safe list is one of the family. -/
theorem safe_member (hF : Proper F) {ids : List ℕ} {f : Fn FnData} (h : f ∈ safefunctionlist (ids.map F)) : F f.id = f := by
  obtain ⟨g, hg, hd⟩ := ((c19_safefunctionlist (ids.map F)).2.2 f).1 h
  obtain ⟨i, -, rfl⟩ := List.mem_map.1 hg
  have key : ∀ g : Fn FnData, F g.id = g → ∀ f, DependsOn g f → F f.id = f := by
    intro g hg f hd
    induction hd with
    | refl f => exact hg
    | @step f b g hb _ ih => exact ih (hF.closed f.id b (by rw [hg]; exact hb))
  exact key (F i) (by rw [hF.ident]) f hd

theorem safe_ids (hF : Proper F) (hM : Behaves mk) (ids : List ℕ) :
    (((safefunctionlist (ids.map F)).map mk).map Owner.id).Nodup := by
  rw [List.map_map]
  refine List.Nodup.map_on ?_ (c19_safefunctionlist _).1
  intro f hf g hg h
  simp only [Function.comp_apply, hM.ident] at h
  rw [← safe_member hF hf, ← safe_member hF hg, h]

theorem safe_listed (hF : Proper F) (hM : Behaves mk) (hset : ∀ ids i, i ∈ set ids ↔ i ∈ ids) (ids : List ℕ) :
    ∀ i ∈ ids, Listed (safeOf F mk set ids) i := by
  intro i hi
  refine ⟨mk (F i), List.mem_map.2 ⟨F i, ((c19_safefunctionlist _).2.2 _).2 ⟨F i, List.mem_map.2 ⟨i, (hset ids i).2 hi, rfl⟩, .refl _⟩, rfl⟩, ?_⟩
  rw [hM.ident, hF.ident]

/-- The base that is written of function `f`, the `i`-th of the list. -/
def BaseAt (l : List (Fn FnData)) (f : Fn FnData) (i : ℕ) (base : Option ℕ) : Prop :=
  (f.base? = none ∧ base = none) ∨ ∃ (b : Fn FnData) (j : ℕ), f.base? = some b ∧ l[j]? = some b ∧ j < i ∧ base = some j

theorem textOf_ok (hF : Proper F) (hM : Behaves mk) (ids : List ℕ) {i : ℕ} {f : Fn FnData} {base : Option ℕ}
    (hf : (safefunctionlist (ids.map F))[i]? = some f) (hb : BaseAt (safefunctionlist (ids.map F)) f i base) :
    textOf F ((safefunctionlist (ids.map F)).map mk) (mk f) = .ok ⟨f.data.name, f.data.module, base, f.data.pairs⟩ := by
  have hm := safe_member hF (List.mem_of_getElem? hf)
  unfold textOf
  rw [hM.ident, hm]
  rcases hb with ⟨h1, rfl⟩ | ⟨b, j, h1, h2, -, rfl⟩
  · rw [h1]
  · rw [h1]
    simp only
    have := ownerIndex_nodup (safe_ids hF hM ids) (i := j) (o := mk b) (by rw [List.getElem?_map, h2]; rfl)
    rw [hM.ident] at this
    rw [this]

theorem base_exists (l : List (Fn FnData)) (h : BasesFirst l) {i : ℕ} {f : Fn FnData} (hf : l[i]? = some f) : ∃ base, BaseAt l f i base := by
  cases hb : f.base? with
  | none => exact ⟨none, .inl ⟨hb, rfl⟩⟩
  | some b =>
    obtain ⟨j, h1, h2⟩ := h i f b hf hb
    exact ⟨some j, .inr ⟨b, j, hb, h2, h1, rfl⟩⟩

theorem alike_data {f g : Fn FnData} (h : Alike f g) : g.data = f.data := by
  cases f <;> cases g <;> simp only [Alike] at h
  · exact h.symm
  · exact h.1.symm

theorem alike_renameFn (σ : ℕ → ℕ) : ∀ f : Fn FnData, Alike f (renameFn σ f)
  | .prim _ _ => rfl
  | .over _ _ b => ⟨rfl, alike_renameFn σ b⟩

theorem renameFn_id (σ : ℕ → ℕ) (f : Fn FnData) : (renameFn σ f).id = σ f.id := by cases f <;> rfl

/-- New objects are numbered as they come in the list. -/
def renumber (l : List (Fn FnData)) (k i : ℕ) : ℕ := k + (l.map Fn.id).idxOf i

theorem renumber_at {l : List (Fn FnData)} (h : (l.map Fn.id).Nodup) (k : ℕ) {i : ℕ} {f : Fn FnData} (hf : l[i]? = some f) :
    renumber l k f.id = k + i := by
  obtain ⟨hi, rfl⟩ := List.getElem?_eq_some_iff.1 hf
  unfold renumber
  have := List.Nodup.idxOf_getElem h i (by simpa using hi)
  rw [List.getElem_map] at this
  rw [this]

theorem safe_ids' (hF : Proper F) (ids : List ℕ) : ((safefunctionlist (ids.map F)).map Fn.id).Nodup := by
  refine List.Nodup.map_on ?_ (c19_safefunctionlist _).1
  intro f hf g hg h
  rw [← safe_member hF hf, ← safe_member hF hg, h]

/-- The list that is read for the list that was written. -/
theorem rebuilt {P : Python K V} {val : FnData → ReadData V} {call : FnRead V → List (Owner K) → Res (Owner K)} {k : ℕ}
    (hF : Proper F) (hM : Behaves mk) (hC : Constructs F mk val call k) (ids : List ℕ)
    (hD : ∀ f ∈ safefunctionlist (ids.map F), DataReadable P f.data (val f.data))
    (hN : ReadsNumbers P (safefunctionlist (ids.map F)).length) :
    Rebuilds P call (textOf F) ((safefunctionlist (ids.map F)).map mk)
      (((safefunctionlist (ids.map F)).map (renameFn (renumber (safefunctionlist (ids.map F)) k))).map mk) := by
  have hnd := safe_ids' hF ids
  have hmem : ∀ {i : ℕ} {f : Fn FnData}, (safefunctionlist (ids.map F))[i]? = some f → F f.id = f := fun h => safe_member hF (List.mem_of_getElem? h)
  obtain ⟨-, hbf, -⟩ := c19_safefunctionlist (ids.map F)
  have hdd := hD
  generalize hL : safefunctionlist (ids.map F) = L at *
  have hbl : ∀ {i : ℕ} {f : Fn FnData} {base : Option ℕ}, L[i]? = some f → BaseAt L f i base →
      textOf F (L.map mk) (mk f) = .ok ⟨f.data.name, f.data.module, base, f.data.pairs⟩ := by
    subst hL
    exact fun h1 h2 => textOf_ok hF hM ids h1 h2
  have hat : ∀ {i : ℕ} {f : Fn FnData}, L[i]? = some f → renumber L k f.id = k + i := fun h => renumber_at hnd k h
  refine ⟨by simp, ?_, ?_⟩
  · have e : ((L.map (renameFn (renumber L k))).map mk).map Owner.id = (L.map Fn.id).map (renumber L k) := by
      simp only [List.map_map]
      exact List.map_congr_left (fun f _ => by simp only [Function.comp_apply, hM.ident, renameFn_id])
    rw [e]
    refine List.Nodup.map_on ?_ hnd
    intro a ha b hb h
    obtain ⟨f, hf, rfl⟩ := List.mem_map.1 ha
    obtain ⟨g, hg, rfl⟩ := List.mem_map.1 hb
    obtain ⟨i, hi⟩ := List.mem_iff_getElem?.1 hf
    obtain ⟨j, hj⟩ := List.mem_iff_getElem?.1 hg
    rw [hat hi, hat hj] at h
    have : i = j := by omega
    subst this
    rw [hi] at hj
    simp only [Option.some.injEq] at hj
    rw [hj]
  · intro i o ho
    rw [List.getElem?_map] at ho
    cases hf : L[i]? with
    | none => rw [hf] at ho; cases ho
    | some f =>
      rw [hf] at ho
      simp only [Option.map_some, Option.some.injEq] at ho
      subst ho
      have hlt := (List.getElem?_eq_some_iff.1 hf).1
      obtain ⟨base, a4⟩ := base_exists L hbf hf
      have hd := hdd f (List.mem_of_getElem? hf)
      have hdone : ((L.map (renameFn (renumber L k))).map mk).take i = ((L.take i).map (renameFn (renumber L k))).map mk := by
        rw [List.map_take, List.map_take]
      have hlen : ((L.take i).map (renameFn (renumber L k))).length = i := by simp; omega
      refine ⟨_, ⟨(val f.data).name, (val f.data).module, base, (val f.data).pairs⟩, mk (renameFn (renumber L k) f), hbl hf a4, ?_,
        fun e he => (hd.keys e he).2, by simp only [List.getElem?_map, hf, Option.map_some], ?_, by rw [hM.same f _ (alike_renameFn _ f)]⟩
      · refine ⟨fun e he => (hd.keys e he).1, hd.distinct, hd.lines, hd.noeq, hd.name, hd.mod, rfl, fun _ => hN.none, fun j hj => ?_, hd.pairs⟩
        simp only at hj
        subst hj
        rcases a4 with ⟨-, h⟩ | ⟨b, j', -, -, h3, h4⟩
        · cases h
        · simp only [Option.some.injEq] at h4
          subst h4
          exact ⟨h3, hN.number j (by omega)⟩
      · rw [hdone]
        have hi := hat hf
        rcases a4 with ⟨h1, rfl⟩ | ⟨b, j, h1, h2, h3, rfl⟩
        · have := hC.prim f.id (by rw [hmem hf]; exact h1) ((L.take i).map (renameFn (renumber L k)))
          rw [hmem hf, hlen, ← hi] at this
          rw [this]
          cases f with
          | prim i d => rfl
          | over i d b => simp [Fn.base?] at h1
        · have hc : ((L.take i).map (renameFn (renumber L k)))[j]? = some (renameFn (renumber L k) b) := by
            rw [List.getElem?_map, List.getElem?_take_of_lt h3, h2]
            rfl
          have := hC.over f.id b (by rw [hmem hf]; exact h1) _ j _ hc (alike_renameFn _ b)
          rw [hmem hf, hlen, ← hi] at this
          rw [this]
          cases f with
          | prim i d => simp [Fn.base?] at h1
          | over i d b' =>
            simp only [Fn.base?, Option.some.injEq] at h1
            subst h1
            rfl

end

end Verif.Text
