import Verif.Text.ExtractionProps

/-!
# C88: the command line of the plotting application, and saved stability analyses

`applications/plot.py:548-667` and `peakstability.py:45-95`.
-/

set_option linter.unusedSectionVars false

namespace Verif.Plot

open Verif.Py Verif.Text

variable {K R : Type}

/-- The part of a `PeakStability` that `load` sets: `results`, `ppe`. -/
structure Saved (K R : Type) where
  results : List R := []
  ppe : Option (Px K) := none

/-- `load(filename)` — peakstability.py:45-68.  `file` is the contents, `none` if it cannot be opened (OSError, `other 4`);
`unpickle` is `pickle.load` followed by the assignment to the pair (`none`: it raises; `other 5`).  What is done with the
results after `readstr` (`finish`) is a parameter. -/
def load (unpickle : List ℕ → Option (List R × Input)) (finish : Saved K R → Res Unit × Saved K R) (file : Option (List ℕ))
    (s : Saved K R) : Res Unit × Saved K R :=
  match file with
  | none => (.error (.other 4), s)
  | some b =>
    match unpickle b with
    | none => (.error (.other 5), s)
    | some (rs, t) =>
      match readstr ({} : Px K) t with
      | (.error e, p) => (.error e, { results := rs, ppe := some p })
      | (.ok (), p) => finish { results := rs, ppe := some p }

/-- `save(filename)` — peakstability.py:70-95: the text of the extraction (`writestr`) and the results are pickled.  The file
is emptied when it is opened.  The result has the new contents of the file. -/
def save (pickle : List R × List Char → Res (List ℕ)) (writestr : Res (List Char)) (results : List R) : Res Unit × List ℕ :=
  match writestr with
  | .error e => (.error e, [])
  | .ok t =>
    match pickle (results, t) with
    | .error e => (.error e, [])
    | .ok b => (.ok (), b)

/-- `readcompare(filename)` — plot.py:548-575: the file is read as bytes, in which a pattern that is a `str` cannot be
searched. -/
def readcompare (file : Option (List ℕ)) : Res (Option (List K)) :=
  match file with
  | none => .error (.other 4)
  | some _ => .error .type

/-- What `main` does that can be observed. -/
inductive Event
  | usage
  | notSrmise (file : String)
  | notStability (file : String)
  | figure
  | saved (file : String)
  | shown
  | drawn
  deriving DecidableEq

/-- The options — plot.py:594-617. -/
structure Options where
  compare : Option String := none
  model : Option ℤ := none
  show_ : Bool := false
  output : Option String := none

/-- What is plotted. -/
inductive Subject (K R : Type)
  | extraction (p : Px K)
  | stability (s : Saved K R)

/-- `toplot.setcurrent(model)` — plot.py:641-645: only a `PeakStability` has that method. -/
def choose (setcurrent : Saved K R → ℤ → Res (Saved K R)) (o : Options) (file : String) (t : Subject K R) :
    List Event × Subject K R :=
  match o.model, t with
  | none, t => ([], t)
  | some _, .extraction p => ([.notStability file], .extraction p)
  | some i, .stability s =>
    match setcurrent s i with
    | .error _ => ([.notStability file], .stability s)
    | .ok s' => ([], .stability s')

/-- plot.py:647-664: the distances to compare with, the figure, the output. -/
def draw (files : String → Option (List ℕ)) (plot : Subject K R → Option (List K) → Res Unit) (o : Options)
    (t : Subject K R) : Res (List Event) :=
  match (match o.compare with | none => .ok none | some f => readcompare (files f) : Res (Option (List K))) with
  | .error e => .error e
  | .ok ds =>
    match plot t ds with
    | .error e => .error e
    | .ok () => .ok ([.figure] ++ (match o.output with | none => [] | some f => [.saved f]) ++
        [if o.show_ then .shown else .drawn])

/-- `main()` — plot.py:578-667. -/
def main (files : String → Option (List ℕ)) (unpickle : List ℕ → Option (List R × Input))
    (finish : Saved K R → Res Unit × Saved K R) (setcurrent : Saved K R → ℤ → Res (Saved K R))
    (plot : Subject K R → Option (List K) → Res Unit) (o : Options) (args : List String) : Res (List Event) :=
  match args with
  | [f] =>
    match read ({} : Px K) (files f) with
    | (.ok (), p) => let r := choose setcurrent o f (.extraction p); (draw files plot o r.2).map (r.1 ++ ·)
    | (.error _, _) =>
      match load unpickle finish (files f) {} with
      | (.ok (), s) => let r := choose setcurrent o f (.stability s); (draw files plot o r.2).map (r.1 ++ ·)
      | (.error _, _) => .ok [.notSrmise f]
  | _ => .ok [.usage]

/-! ### The properties -/

/-- **C88, finding.** No saved analysis can be loaded: whatever the file holds, `load` raises.  If the file is a pickled
pair, the results have been replaced by those of the file all the same, and the extraction by an empty one. -/
theorem c88_load (unpickle : List ℕ → Option (List R × Input)) (finish : Saved K R → Res Unit × Saved K R)
    (file : Option (List ℕ)) (s : Saved K R) :
    (load unpickle finish file s).1 ≠ .ok () ∧
    ((∀ b, file = some b → unpickle b = none) → (load unpickle finish file s).2 = s) ∧
    (∀ b rs t, file = some b → unpickle b = some (rs, t) → (load unpickle finish file s).2 = ⟨rs, some {}⟩) := by
  have hread : ∀ t, ∃ e, readstr ({} : Px K) t = (.error e, {}) := by
    intro t
    obtain ⟨h1, h2⟩ := (c78_read ({} : Px K)).2.2 t
    rcases hr : readstr ({} : Px K) t with ⟨r, p⟩
    rw [hr] at h1 h2
    simp only at h1 h2
    subst h2
    cases r with
    | error e => exact ⟨e, rfl⟩
    | ok u => simp at h1
  cases file with
  | none => exact ⟨fun h => by simp [load] at h, fun _ => rfl, fun b rs t h => by simp at h⟩
  | some b =>
    cases hu : unpickle b with
    | none =>
      refine ⟨fun h => by simp [load, hu] at h, fun _ => by simp [load, hu], ?_⟩
      intro b' rs t h1 h2
      simp only [Option.some.injEq] at h1
      rw [← h1, hu] at h2
      simp at h2
    | some q =>
      obtain ⟨rs, t⟩ := q
      obtain ⟨e, he⟩ := hread t
      refine ⟨?_, ?_, ?_⟩
      · intro h
        simp only [load, hu] at h
        rw [he] at h
        simp at h
      · intro h
        have := h b rfl
        rw [hu] at this
        simp at this
      · intro b' rs' t' h1 h2
        simp only [Option.some.injEq] at h1
        rw [← h1, hu] at h2
        simp only [Option.some.injEq, Prod.mk.injEq] at h2
        obtain ⟨rfl, rfl⟩ := h2
        simp only [load, hu]
        rw [he]

/-- **C88, finding.** So what `save` writes is never loaded again — and if the extraction cannot be written (`c78_unwritable`)
or the results cannot be pickled, `save` raises with the file emptied, whatever was in it. -/
theorem c88_save (pickle : List R × List Char → Res (List ℕ)) (writestr : Res (List Char)) (results : List R) :
    (∀ b, (save pickle writestr results) = (.ok (), b) → ∀ (unpickle : List ℕ → Option (List R × Input))
      (finish : Saved K R → Res Unit × Saved K R) (s : Saved K R), (load unpickle finish (some b) s).1 ≠ .ok ()) ∧
    ((save pickle writestr results).1 ≠ .ok () ↔ (∃ e, writestr = .error e) ∨ ∃ t e, writestr = .ok t ∧ pickle (results, t) = .error e) ∧
    ((save pickle writestr results).1 ≠ .ok () → (save pickle writestr results).2 = []) := by
  refine ⟨fun b _ u f s => (c88_load u f (some b) s).1, ?_, ?_⟩
  · unfold save
    cases writestr with
    | error e => simp
    | ok t => cases h : pickle (results, t) with
      | error e => simp [h]
      | ok b => simp [h]
  · unfold save
    cases writestr with
    | error e => simp
    | ok t => cases h : pickle (results, t) with
      | error e => simp [h]
      | ok b => simp [h]

/-- **C88, finding.** The plotting application never plots: given exactly one file, whatever it holds, it says that this is
no SrMise file and returns; otherwise it shows the usage.  (And if it did read one, distances to compare with could not be
given: `c88_compare`.) -/
theorem c88_main (files : String → Option (List ℕ)) (unpickle : List ℕ → Option (List R × Input))
    (finish : Saved K R → Res Unit × Saved K R) (setcurrent : Saved K R → ℤ → Res (Saved K R))
    (plot : Subject K R → Option (List K) → Res Unit) (o : Options) (args : List String) :
    (∀ f, args = [f] → main files unpickle finish setcurrent plot o args = .ok [.notSrmise f]) ∧
    (args.length ≠ 1 → main files unpickle finish setcurrent plot o args = .ok [.usage]) ∧
    ∀ l, main files unpickle finish setcurrent plot o args = .ok l → Event.figure ∉ l := by
  have h1 : ∀ f, main files unpickle finish setcurrent plot o [f] = .ok [.notSrmise f] := by
    intro f
    unfold main
    simp only
    rcases hr : read ({} : Px K) (files f) with ⟨r, p⟩
    cases r with
    | ok u => exact absurd (by rw [hr]) ((c78_read ({} : Px K)).1 (files f))
    | error e =>
      simp only
      rcases hl : load unpickle finish (files f) {} with ⟨r, s⟩
      cases r with
      | ok u => exact absurd (by rw [hl]) (c88_load unpickle finish (files f) {}).1
      | error e => rfl
  have h2 : args.length ≠ 1 → main files unpickle finish setcurrent plot o args = .ok [.usage] := by
    intro h
    unfold main
    match args, h with
    | [], _ => rfl
    | _ :: _ :: _, _ => rfl
    | [f], h => simp at h
  refine ⟨fun f hf => by rw [hf]; exact h1 f, h2, ?_⟩
  intro l hl
  by_cases h : args.length = 1
  · obtain ⟨f, rfl⟩ := List.length_eq_one_iff.1 h
    rw [h1 f, Except.ok.injEq] at hl
    rw [← hl]; simp
  · rw [h2 h, Except.ok.injEq] at hl
    rw [← hl]; simp

/-- **C88, finding.** Distances to compare with are never read: `readcompare` raises for every file. -/
theorem c88_compare (file : Option (List ℕ)) (ds : Option (List K)) : readcompare file ≠ .ok ds := by
  cases file <;> simp [readcompare]

/-- **C88.** What the command would do with a file it had read: `--model` for something that is not a saved analysis with
that model only leads to the message, and the same is plotted; otherwise that model is.  A figure is made, saved exactly if an
output file is given, and shown exactly if `--show` is given; no event occurs if the distances cannot be read or the plot fails. -/
theorem c88_drawn (files : String → Option (List ℕ)) (plot : Subject K R → Option (List K) → Res Unit)
    (setcurrent : Saved K R → ℤ → Res (Saved K R)) (o : Options) (f : String) (t : Subject K R) :
    (o.model = none → choose setcurrent o f t = ([], t)) ∧
    (∀ i s s', o.model = some i → t = .stability s → setcurrent s i = .ok s' → choose setcurrent o f t = ([], .stability s')) ∧
    (∀ i, o.model = some i → (∀ s s', t = .stability s → setcurrent s i ≠ .ok s') → choose setcurrent o f t = ([.notStability f], t)) ∧
    (∀ l, draw files plot o t = .ok l ↔ o.compare = none ∧ plot t none = .ok () ∧
      l = .figure :: ((o.output.map Event.saved).toList ++ [if o.show_ = true then .shown else .drawn])) := by
  refine ⟨?_, ?_, ?_, ?_⟩
  · intro h
    unfold choose
    rw [h]
  · rintro i s s' h rfl hs
    unfold choose
    rw [h]
    simp only [hs]
  · intro i h hs
    unfold choose
    rw [h]
    cases t with
    | extraction p => rfl
    | stability s =>
      simp only
      cases hc : setcurrent s i with
      | error e => rfl
      | ok s' => exact absurd hc (hs s s' rfl)
  · intro l
    unfold draw
    cases hc : o.compare with
    | some g =>
      simp only
      cases hr : (readcompare (files g) : Res (Option (List K))) with
      | error e => simp
      | ok ds => exact absurd hr (c88_compare _ _)
    | none =>
      simp only
      cases hp : plot t none with
      | error e => simp
      | ok u =>
        cases ho : o.output with
        | none => exact ⟨fun h => ⟨trivial, rfl, (Except.ok.inj h).symm⟩, fun h => congrArg Except.ok h.2.2.symm⟩
        | some g => exact ⟨fun h => ⟨trivial, rfl, (Except.ok.inj h).symm⟩, fun h => congrArg Except.ok h.2.2.symm⟩

/-- Instance of `c88_drawn`: an extraction, with `--model` and `--show`. -/
example : choose (K := ℚ) (R := ℕ) (fun s _ => .ok s) { model := some 1, show_ := true } "a" (.extraction {}) = ([.notStability "a"], .extraction {}) ∧
    draw (K := ℚ) (R := ℕ) (fun _ => none) (fun _ _ => .ok ()) { model := some 1, show_ := true } (.extraction {}) =
      .ok [.figure, .shown] :=
  ⟨(c88_drawn (R := ℕ) (fun _ => none) (fun _ _ => .ok ()) (fun s _ => .ok s) { model := some 1, show_ := true } "a" (.extraction {})).2.2.1 1 rfl
      (fun _ _ h => nomatch h), ((c88_drawn _ _ (fun s _ => .ok s) _ "a" _).2.2.2 _).2 ⟨rfl, rfl, rfl⟩⟩

/-- Instance of C88: a file that unpickles to two results and a text with both sections; they are not plotted. -/
example : main (K := ℚ) (R := ℕ) (fun _ => some [1, 2]) (fun _ => some ([7, 8], .str "## start data\n## Results\n".toList))
    (fun s => (.ok (), s)) (fun s _ => .ok s) (fun _ _ => .ok ()) { model := some 1 } ["a.pkl"] = .ok [.notSrmise "a.pkl"] :=
  (c88_main _ _ _ _ _ _ _).1 _ rfl

end Verif.Plot
