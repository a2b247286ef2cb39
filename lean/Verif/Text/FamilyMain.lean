import Verif.Text.FamilyProps

/-!
# C113: theorems and an instance
-/

namespace Verif.Text

open Verif.Py Verif.Parts Verif.Function

set_option linter.unusedSectionVars false

variable {K V E : Type}

variable {F : Family} {mk : Fn FnData → Owner K} {set : List ℕ → List ℕ}

/-- **C113.** `writestr()` of a cluster whose functions are any objects built on one another: it raises exactly if the cluster has no peak
functions or no baseline, or fewer ordinates or uncertainties than abscissae.  No function is ever written before its base. -/
theorem c113_writable (P : Python K V) (fmt : K → List Char) (hF : Proper F) (hM : Behaves mk) (hset : ∀ ids i, i ∈ set ids ↔ i ∈ ids)
    (c : Mc K) :
    (∃ text, mcWritestrKw P fmt (safeOf F mk set) (textOf F) none none c = .ok text) ↔
      c.funcs ≠ none ∧ c.baseline ≠ none ∧ c.r.length ≤ c.y.length ∧ c.r.length ≤ c.err.length := by
  rw [c111_writable P fmt (safeOf F mk set) (textOf F) c (fun ids => safe_listed hF hM hset ids)]
  have key : ∀ ids, ∀ f ∈ safeOf F mk set ids, ∃ t, textOf F (safeOf F mk set ids) f = .ok t := by
    intro ids o ho
    obtain ⟨f, hf, rfl⟩ := List.mem_map.1 ho
    obtain ⟨i, hi⟩ := List.mem_iff_getElem?.1 hf
    obtain ⟨base, hb⟩ := base_exists _ (c19_safefunctionlist _).2.1 hi
    exact ⟨_, textOf_ok hF hM (set ids) hi hb⟩
  constructor
  · rintro ⟨h1, h2, -, -, h3⟩
    exact ⟨h1, h2, h3⟩
  · rintro ⟨h1, h2, h3⟩
    exact ⟨h1, h2, key _, key _, h3⟩

/-- What is assumed of Python and of the cluster besides its functions; `n` is the number of functions that are written. -/
structure TextReadable (P : Python K V) (indices : V → Res (List ℤ)) (float : List Char → Option K) (fmt : K → List Char)
    (g : K → K) (mk : Fn FnData → Owner K) (F : Family) (pf : List (Owner K)) (c : Mc K) (n : ℕ) (slice : V) : Prop where
  owners : ∀ p ∈ c.model ++ c.baseline.toList, p.owner = mk (F p.owner.id)
  pars : ∀ p ∈ c.model ++ c.baseline.toList, p.pars.length = p.owner.npars ∧ p.free.length = p.owner.npars
  readable : ∀ p ∈ c.model ++ c.baseline.toList, ∀ i, i < n → Readable P p i
  funcs : ∀ fs is, c.funcs = some fs → funcIndices pf fs = .ok is →
    ∃ v, P.eval (listText (is.map reprNat)) = some v ∧ P.isNone v = false ∧ indices v = .ok (is.map (fun i : ℕ => (i : ℤ)))
  method : ∀ m, c.method = some m → ∀ x ∈ m, isSpace x = false
  slice : P.eval c.slice = some slice
  sliceLine : '\n' ∉ c.slice ∧ strip c.slice = c.slice
  number : ∀ x ∈ c.r ++ c.y ++ c.err, fmt x ≠ [] ∧ (∀ a ∈ fmt x, isSpace a = false ∧ a ≠ '#') ∧ float (fmt x) = some (g x)
  lengths : c.y.length = c.r.length ∧ c.err.length = c.r.length

/-- The same part, of the function that stands for its function. -/
def onCopy (F : Family) (mk : Fn FnData → Owner K) (ρ : ℕ → ℕ) (p : Part K) : Part K :=
  { p with owner := mk (renameFn ρ (F p.owner.id)) }

/-- No two of the functions with these identities, or of those these are built on, come to have the same identity. -/
def KeepsApart (F : Family) (ρ : ℕ → ℕ) (ids : List ℕ) : Prop :=
  ∀ i ∈ ids, ∀ j ∈ ids, ∀ f g, DependsOn (F i) f → DependsOn (F j) g → ρ f.id = ρ g.id → f = g

theorem part_readable (hF : Proper F) (hM : Behaves mk) {P : Python K V} {indices : V → Res (List ℤ)} {float : List Char → Option K}
    {fmt : K → List Char} {g : K → K} {pf : List (Owner K)} {c : Mc K} {n : ℕ} {slice : V}
    (h : TextReadable P indices float fmt g mk F pf c n slice) (ids : List ℕ) (hn : (safeOf F mk set ids).length ≤ n)
    {p : Part K} (hp : p ∈ c.model ++ c.baseline.toList) : PartReadable P (safeOf F mk set ids) p := by
  refine ⟨fun o ho hid => ?_, (h.pars p hp).1, (h.pars p hp).2, fun i hi => h.readable p hp i ?_⟩
  · obtain ⟨f, hf, rfl⟩ := List.mem_map.1 ho
    rw [hM.ident] at hid
    rw [h.owners p hp, ← hid, safe_member hF hf]
  · obtain ⟨o, ho, -⟩ := ownerIndex_some hi
    have := (List.getElem?_eq_some_iff.1 ho).1
    omega

/-- **C113.** Such a cluster, written on its own, is read on its own as the cluster it was: new functions, each the object of the same class, with
the same metadata and — all the way down — the base that stands for its base; peaks, baseline and peak functions are what they were, of
these functions; what was one object is one object, what were two are two. -/
theorem c113_roundtrip (P : Python K V) (call : FnRead V → List (Owner K) → Res (Owner K)) (indices : V → Res (List ℤ))
    (float : List Char → Option K) (fmt : K → List Char) (g : K → K) (attr : List Char → Option E) (val : FnData → ReadData V) (k n : ℕ)
    (c : Mc K) (slice : V) (e : E) (hF : Proper F) (hM : Behaves mk) (hC : Constructs F mk val call k) (hset : ∀ ids i, i ∈ set ids ↔ i ∈ ids)
    (hD : ∀ i, DataReadable P (F i).data (val (F i).data)) (hN : ReadsNumbers P n)
    (h : TextReadable P indices float fmt g mk F (safeOf F mk set (functionsOf c)) c n slice)
    (hn : (safeOf F mk set (functionsOf c)).length ≤ n ∧ (safeOf F mk set (baselineFunctionOf c)).length ≤ n)
    (fs : List ℕ) (bl : Part K) (hf : c.funcs = some fs) (hb : c.baseline = some bl) (hne : c.r ≠ [])
    (he : attr (c.method.getD "None".toList) = some e) :
    ∃ (text : List Char) (m : McRead K V E) (ρ τ : ℕ → ℕ), mcWritestrKw P fmt (safeOf F mk set) (textOf F) none none c = .ok text ∧
      mcFactoryKw P call indices float attr none none text = .ok m ∧
      m.model = c.model.map (onCopy F mk ρ) ∧ m.funcs = some (fs.map (fun i => mk (renameFn ρ (F i)))) ∧ m.baseline = some (onCopy F mk τ bl) ∧
      m.r = some (c.r.map g) ∧ m.y = some (c.y.map g) ∧ m.err = some (c.err.map g) ∧ m.slice = slice ∧ m.method = e ∧
      KeepsApart F ρ (functionsOf c) ∧ KeepsApart F τ [bl.owner.id] := by
  have hN' : ∀ ids, (safeOf F mk set ids).length ≤ n → ReadsNumbers P (safefunctionlist ((set ids).map F)).length := by
    intro ids hl
    unfold safeOf at hl
    rw [List.length_map] at hl
    exact ⟨hN.none, fun i hi => hN.number i (by omega)⟩
  have hD' : ∀ ids, ∀ f ∈ safefunctionlist (List.map F ids), DataReadable P f.data (val f.data) := by
    intro ids f hf
    have := hD f.id
    rw [safe_member hF hf] at this
    exact this
  have hbf : baselineFunctionOf c = [bl.owner.id] := by unfold baselineFunctionOf; rw [hb]; rfl
  have hr := rebuilt hF hM hC (set (functionsOf c)) (hD' _) (hN' _ hn.1)
  have hr2 := rebuilt hF hM hC (set (baselineFunctionOf c)) (hD' _) (hN' _ hn.2)
  -- nothing is confused
  have apart : ∀ ids, KeepsApart F (renumber (safefunctionlist ((set ids).map F)) k) ids := by
    intro ids i hi j hj f f' hd hd' heq
    have mem : ∀ i ∈ ids, ∀ f, DependsOn (F i) f → f ∈ safefunctionlist ((set ids).map F) := fun i hi f hd =>
      ((c19_safefunctionlist _).2.2 f).2 ⟨F i, List.mem_map.2 ⟨i, (hset ids i).2 hi, rfl⟩, hd⟩
    obtain ⟨a, ha⟩ := List.mem_iff_getElem?.1 (mem i hi f hd)
    obtain ⟨b, hb⟩ := List.mem_iff_getElem?.1 (mem j hj f' hd')
    rw [renumber_at (safe_ids' hF _) k ha, renumber_at (safe_ids' hF _) k hb] at heq
    have : a = b := by omega
    subst this
    rw [ha] at hb
    simpa using hb
  -- the copy that stands for a function
  have copy : ∀ (ids : List ℕ) (i : ℕ) (o o' : Owner K), (safeOf F mk set ids)[i]? = some o →
      (((safefunctionlist ((set ids).map F)).map (renameFn (renumber (safefunctionlist ((set ids).map F)) k))).map mk)[i]? = some o' →
      o' = mk (renameFn (renumber (safefunctionlist ((set ids).map F)) k) (F o.id)) := by
    intro ids i o o' ho ho'
    unfold safeOf at ho
    rw [List.getElem?_map] at ho ho'
    rw [List.getElem?_map] at ho'
    cases hfi : (safefunctionlist ((set ids).map F))[i]? with
    | none => rw [hfi] at ho; cases ho
    | some f =>
      rw [hfi] at ho ho'
      simp only [Option.map_some, Option.some.injEq] at ho ho'
      rw [← ho', ← ho, hM.ident, safe_member hF (List.mem_of_getElem? hfi)]
  obtain ⟨text, ht⟩ := (c113_writable P fmt hF hM hset c).2
    ⟨by rw [hf]; simp, by rw [hb]; simp, by rw [h.lengths.1], by rw [h.lengths.2]⟩
  have hread : McReadable P indices float fmt g c (safeOf F mk set (functionsOf c)) (safeOf F mk set (baselineFunctionOf c)) slice := by
    refine ⟨fun p hp => part_readable hF hM h _ hn.1 (List.mem_append_left _ hp),
      fun p hp => part_readable hF hM h _ hn.2 (List.mem_append_right _ (by rw [hp]; simp)),
      (fun h0 => by rw [hf] at h0; cases h0), h.funcs, h.method, h.slice, h.sliceLine, h.number, h.lengths⟩
  have hidd : ∀ x ∈ safeOf F mk set (functionsOf c), ∀ y ∈ safeOf F mk set (functionsOf c), x.id = y.id → x = y := by
    intro x hx y hy hxy
    obtain ⟨f, hf1, rfl⟩ := List.mem_map.1 hx
    obtain ⟨f', hf2, rfl⟩ := List.mem_map.1 hy
    rw [hM.ident, hM.ident] at hxy
    rw [← safe_member hF hf1, ← safe_member hF hf2, hxy]
  obtain ⟨m, hm, m1, m2, m3, m4, m5, m6, m7, m8⟩ := c111_roundtrip P call indices float fmt g (safeOf F mk set) (textOf F) attr c none none
    _ _ _ _ slice e rfl rfl hidd hr hr2 hread hne he text ht
  have part : ∀ (ids : List ℕ) {p q : Part K},
      SamePart (safeOf F mk set ids)
        (((safefunctionlist ((set ids).map F)).map (renameFn (renumber (safefunctionlist ((set ids).map F)) k))).map mk) p q →
      q = onCopy F mk (renumber (safefunctionlist ((set ids).map F)) k) p := by
    intro ids p q hs
    obtain ⟨i, h1, h2⟩ := hs.owner
    have := copy ids i _ _ h1 h2
    obtain ⟨a1, a2, a3, a4, a5, -⟩ := hs
    cases p
    cases q
    simp only at a1 a2 a3 a4 a5 this
    subst a1 a2 a3 a4 a5 this
    rfl
  refine ⟨text, m, renumber (safefunctionlist ((set (functionsOf c)).map F)) k,
    renumber (safefunctionlist ((set (baselineFunctionOf c)).map F)) k, ht, hm, ?_, ?_, ?_, m4, m5, m6, m7, m8, apart _,
    (by have e1 := apart (baselineFunctionOf c); rw [hbf] at e1 ⊢; exact e1)⟩
  · have key : ∀ (l : List (Part K)) (l' : List (Part K)), List.Forall₂ (SamePart (safeOf F mk set (functionsOf c))
          (((safefunctionlist ((set (functionsOf c)).map F)).map (renameFn (renumber (safefunctionlist ((set (functionsOf c)).map F)) k))).map mk)) l l' →
        l' = l.map (onCopy F mk (renumber (safefunctionlist ((set (functionsOf c)).map F)) k)) := by
      intro l l' h
      induction h with
      | nil => rfl
      | cons h1 _ ih => rw [List.map_cons, part _ h1, ih]
    exact key _ _ m1
  · rw [hf] at m3
    cases hmf : m.funcs with
    | none => rw [hmf] at m3; cases m3
    | some os =>
      rw [hmf] at m3
      cases m3 with
      | some m3 =>
        have key : ∀ (l : List ℕ) (l' : List (Owner K)), List.Forall₂ (SameFunc (safeOf F mk set (functionsOf c))
          (((safefunctionlist ((set (functionsOf c)).map F)).map (renameFn (renumber (safefunctionlist ((set (functionsOf c)).map F)) k))).map mk)) l l' →
            l' = l.map (fun i => mk (renameFn (renumber (safefunctionlist ((set (functionsOf c)).map F)) k) (F i))) := by
          intro l l' h
          induction h with
          | nil => rfl
          | cons h1 _ ih =>
            obtain ⟨i, x, e1, e2, e3⟩ := h1
            rw [List.map_cons, ih, copy _ i x _ e1 e3, e2]
        rw [key _ _ m3]
  · rw [hb] at m2
    cases hmb : m.baseline with
    | none => rw [hmb] at m2; cases m2
    | some b' =>
      rw [hmb] at m2
      cases m2 with
      | some m2 => rw [part _ m2]

/-! ### An example -/

/-- The function 8 is built on the function 5; every other is on its own. -/
def exFamily (i : ℕ) : Fn FnData :=
  if i = 8 then .over 8 ⟨"'F'".toList, "'m'".toList, [("qmax".toList, "2".toList)]⟩ (.prim 5 ⟨"'F'".toList, "'m'".toList, []⟩)
  else .prim i ⟨"'F'".toList, "'m'".toList, []⟩

def exMk (f : Fn FnData) : Owner ℤ := exOwner f.id

def exVal (d : FnData) : ReadData ExV := ⟨.int 100, .int 101, if d.pairs = [] then [] else [("qmax".toList, .int 2)]⟩

theorem exProper : Proper exFamily := by
  constructor
  · intro i
    unfold exFamily
    split
    · rename_i h; rw [h]; rfl
    · rfl
  · intro i b h
    unfold exFamily at h
    split at h
    · simp only [Fn.base?, Option.some.injEq] at h
      subst h
      rfl
    · cases h

theorem exBehaves : Behaves exMk := ⟨fun _ => rfl, fun _ _ _ => rfl⟩

theorem exConstructs : Constructs exFamily exMk exVal exCall 100 := by
  constructor
  · intro i _ done
    unfold exCall exMk
    rw [List.length_map]
    rfl
  · intro i b _ done j c _ _
    unfold exCall exMk
    rw [List.length_map]
    rfl

theorem exDataReadable (i : ℕ) : DataReadable exPyA (exFamily i).data (exVal (exFamily i).data) := by
  unfold exFamily
  split
  · refine ⟨by unfold IsKey Plain; decide, by decide, by unfold OneLine; decide, by decide, by decide, by decide, .cons ⟨rfl, by decide⟩ .nil⟩
  · show DataReadable exPyA ⟨"'F'".toList, "'m'".toList, []⟩ (exVal ⟨"'F'".toList, "'m'".toList, []⟩)
    exact ⟨(fun _ h => nomatch h), by decide, by unfold OneLine; decide, by decide, by decide, by decide, .nil⟩

theorem exReadsNumbers : ReadsNumbers exPyA 2 := by
  refine ⟨⟨.int 102, by decide, by decide⟩, fun i hi => ?_⟩
  obtain rfl | rfl : i = 0 ∨ i = 1 := by omega
  · exact ⟨.int 0, by decide, by decide, by decide⟩
  · exact ⟨.int 1, by decide, by decide, by decide⟩

theorem exSafeLists : safeOf exFamily exMk List.dedup (functionsOf exMcA) = [exOwner 5, exOwner 8] ∧
    safeOf exFamily exMk List.dedup (baselineFunctionOf exMcA) = [exOwner 5] := by
  constructor <;> rfl

theorem exTextReadable : TextReadable exPyA exIndices exFloat (exPy.reprNum false) id exMk exFamily [exOwner 5, exOwner 8] exMcA 2 (.int 9) := by
  have parts : ∀ p ∈ exMcA.model ++ exMcA.baseline.toList, p = exTextPart ∨ p = exPart5 := by
    intro p hp
    simp only [exMcA, Option.toList, List.cons_append, List.nil_append, List.mem_cons, List.not_mem_nil, or_false] at hp
    tauto
  have h := exMcReadableA
  refine ⟨?_, ?_, ?_, h.funcs, h.method, h.slice, h.sliceLine, h.number, h.lengths⟩
  · intro p hp
    rcases parts p hp with rfl | rfl <;> rfl
  · intro p hp
    rcases parts p hp with rfl | rfl <;> exact ⟨rfl, rfl⟩
  · intro p hp i hi
    exact exReadableA p (parts p hp) i (by omega)

/-- Instance of `c113_writable` and `c113_roundtrip`: peaks of a function and of one that is built on it, on a baseline of the first. -/
example : ∃ (text : List Char) (m : McRead ℤ ExV ℕ) (ρ τ : ℕ → ℕ),
    mcWritestrKw exPyA (exPy.reprNum false) (safeOf exFamily exMk List.dedup) (textOf exFamily) none none exMcA = .ok text ∧
    mcFactoryKw exPyA exCall exIndices exFloat (fun n => if n = "AIC".toList then some 0 else none) none none text = .ok m ∧
    m.model = exMcA.model.map (onCopy exFamily exMk ρ) ∧ m.baseline = some (onCopy exFamily exMk τ exPart5) ∧
    KeepsApart exFamily ρ [8, 5] := by
  obtain ⟨text, m, ρ, τ, h1, h2, h3, -, h5, -, -, -, -, -, h11, -⟩ := c113_roundtrip exPyA exCall exIndices exFloat (exPy.reprNum false) id
    (fun n => if n = "AIC".toList then some 0 else none) exVal 100 2 exMcA (.int 9) 0 exProper exBehaves exConstructs
    (set := List.dedup) (fun ids i => List.mem_dedup) exDataReadable exReadsNumbers (by rw [exSafeLists.1]; exact exTextReadable)
    (by rw [exSafeLists.1, exSafeLists.2]; decide) [8, 5] exPart5 rfl rfl (by decide) (by decide)
  have mem : ∀ i ∈ [8, 5], i ∈ functionsOf exMcA := fun i hi => List.mem_append_right _ hi
  exact ⟨text, m, ρ, τ, h1, h2, h3, h5, fun i hi j hj => h11 i (mem i hi) j (mem j hj)⟩

/-- Instance of `c113_writable`: without peak functions nothing is written. -/
example : ¬ ∃ text, mcWritestrKw exPyA (exPy.reprNum false) (safeOf exFamily exMk List.dedup) (textOf exFamily) none none
    { exMcA with funcs := none } = .ok text := by
  rw [c113_writable exPyA _ exProper exBehaves (fun ids i => List.mem_dedup)]
  exact fun h => h.1 rfl

end Verif.Text
