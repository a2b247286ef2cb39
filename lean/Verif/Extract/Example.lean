import Verif.Extract.Tame

/-!
# A concrete world: peaks of one point

Data 0..6; a peak has a position and a height and counts at its position only.
-/

set_option linter.unusedSectionVars false

namespace Verif.Parts.Extract

open Verif.Py Verif.PeakList Verif.Parts.ModelCluster Verif.Extraction

/-- The function of the peaks. -/
def dotOwner (id : ℕ) : Owner ℚ := ⟨id, 2, [("position", 0), ("height", 1)], fun _ _ => [], fun _ _ _ => [], fun p _ _ => .ok p⟩

/-- A peak at `a` of height `h`. -/
def dot (id : ℕ) (a h : ℚ) (removable : Bool) : Part ℚ := ⟨dotOwner id, [a, h], [true, true], removable, false, false⟩

/-- Its value. -/
def dotVal (p : Part ℚ) (a : ℚ) : ℚ := if a = p.pars.getD 0 0 then p.pars.getD 1 0 else 0

/-- The unexplained part of the data of a cluster. -/
def left (c : Cluster ℚ) (m : List (Part ℚ)) : List ℚ :=
  match c.slice with
  | none => []
  | some s => List.zipWith (fun a b => b - valueAt dotVal m a) (s.get c.r) (s.get c.y)

/-- Sum of deviations and a price for each peak. -/
def dotQual (c : Cluster ℚ) (m : List (Part ℚ)) : Evaluator.Ev ℚ :=
  ⟨"AIC", false, some (((left c m).map (fun v => |v|)).sum + m.length / 4), none⟩

/-- A peak where the data are largest, if they exceed one half there. -/
def dotEst (c : Cluster ℚ) : Option (Part ℚ) :=
  match c.slice, c.funcs with
  | some s, f :: _ =>
    match (List.zip (s.get c.r) (s.get c.y)).foldl (fun (b : ℚ × ℚ) p => if b.2 < p.2 then p else b) (0, 1/2) with
    | (a, h) => if 1/2 < h then some (dot f a h true) else none
  | _, _ => none

/-- The peak, or SrMiseEstimationError. -/
def orRaise (p : Option (Part ℚ)) : Res (Option (Part ℚ)) := if p.isSome then .ok p else .error .estimation

theorem orRaise_some {p : Option (Part ℚ)} {q : Part ℚ} (h : orRaise p = .ok (some q)) : p = some q := by
  unfold orRaise at h
  split at h
  · simpa using h
  · simp at h

theorem orRaise_cases (p : Option (Part ℚ)) : orRaise p = .error .estimation ∨ ∃ q, orRaise p = .ok (some q) := by
  cases p with
  | none => exact Or.inl rfl
  | some q => exact Or.inr ⟨q, rfl⟩

def dotEnv (c : Cluster ℚ) : Env ℚ where
  quality m _ := dotQual c m
  growth m _ := (left c m).any (fun v => decide (1/2 < |v|))
  lsq ps := (.ok (), ps)
  estimate := orRaise (dotEst c)
  clean := id
  as := mergeAs

def dotWorld : World ℚ where
  env := dotEnv
  pruneEnv c := ⟨fun out => { dotEnv c with quality := fun m _ => dotQual c (out ++ m) }, fun out m _ => dotQual c (out ++ m)⟩
  pick := pickBest
  as := mergeAs
  val p a := if p.owner.id = 0 then 0 else dotVal p a
  sc p _ s := .ok (p.pars.set 1 (s * p.pars.getD 1 0))
  eqv _ _ := true
  minpoints _ _ := 1
  func := dotOwner

/-- Object 0: the zero baseline, the empty peak list; object 1: the user's initial peaks, the user's functions. -/
def dotHeap : Heap ℚ where
  base _ := ⟨⟨0, 0, [], fun _ _ => [], fun _ _ _ => [], fun p _ _ => .ok p⟩, [], [], false, true, false⟩
  peaks i := if i = 1 then [dot 9 2 5 false] else []
  funcs _ := [7]

def dotDef : Defaults ℚ := ⟨fun _ _ _ => .ok 0, fun _ => 1, 0, 0, 0⟩

/-- The variables. -/
def dotVars (ip : Option ℕ) (rng : Option (Option ℚ × Option ℚ)) : PX ℚ :=
  { x := some [0, 1, 2, 3, 4, 5, 6], y := some [0, 3, 5, 0, 2, 0, 1], dx := some [0, 0, 0, 0, 0, 0, 0], dy := some [1/4, 1/4, 1/4, 1/4, 1/4, 1/4, 1/4], pf := some 1, initialPeaks := ip, cres := some 1, rng := rng }

/-- Functions, positions and heights. -/
def shown (r : Res (Cluster ℚ)) : Option (List (ℕ × List ℚ)) :=
  match r with
  | .error _ => none
  | .ok c => some (c.model.map (fun p => (p.owner.id, p.pars)))

theorem dotWorld_sane : Sane dotWorld where
  sorts := mergeAs_sorts
  scales := by
    intro p x s v h
    simp only [dotWorld, Except.ok.injEq] at h
    rw [← h, List.length_set]
  tame := fun _ => ⟨mergeAs_sorts, fun _ => frames_refl _, fun _ => List.Sublist.refl _, fun _ => rfl⟩
  ptame := fun _ _ => ⟨mergeAs_sorts, fun _ => frames_refl _, fun _ => List.Sublist.refl _, fun _ => rfl⟩
  ctame := fun _ => ⟨mergeAs_sorts, fun _ => frames_refl _, fun _ => List.Sublist.refl _, fun _ => rfl⟩

theorem dotWorld_estimates : Estimates dotWorld := by
  intro c p h
  have h' : dotEst c = some p := orRaise_some h
  unfold dotEst at h'
  split at h'
  · rename_i f fs _ hf
    simp only at h'
    split at h'
    · simp only [Option.some.injEq] at h'
      rw [← h', hf]
      exact ⟨⟨f, List.mem_cons_self, rfl⟩, rfl, rfl, rfl, fun _ => ⟨rfl, rfl⟩⟩
    · simp at h'
  · simp at h'

theorem dotVars_ready (ip : Option ℕ) (rng : Option (Option ℚ × Option ℚ)) :
    Ready (dotVars ip rng) [0, 1, 2, 3, 4, 5, 6] [0, 3, 5, 0, 2, 0, 1] :=
  ⟨rfl, rfl, ⟨_, rfl, rfl⟩, by intro e h; simp [dotVars] at h, by decide +kernel, rfl⟩

/-- Instance of C68–C70: the hypotheses hold, and the search returns — two peaks of the supplied function are found
beside the initial peak, which cannot be removed; without initial peaks that peak is found, too; with a range, only
peaks in it. -/
example : Sane dotWorld ∧ Estimates dotWorld ∧ dotHeap.peaks dotDef.noPeaks = [] ∧
    Ready (dotVars (some 1) none) [0, 1, 2, 3, 4, 5, 6] [0, 3, 5, 0, 2, 0, 1] ∧
    shown (extractSingle dotWorld dotHeap dotDef 3 1 (dotVars (some 1) none)) =
      some [(7, [1, 3]), (9, [2, 5]), (7, [4, 2]), (7, [6, 1])] ∧
    shown (extractSingle dotWorld dotHeap dotDef 3 1 (dotVars none none)) =
      some [(7, [1, 3]), (7, [2, 5]), (7, [4, 2]), (7, [6, 1])] ∧
    shown (extractSingle dotWorld dotHeap dotDef 3 1 (dotVars (some 1) (some (some 1, some 5)))) =
      some [(7, [1, 3]), (9, [2, 5]), (7, [4, 2])] := by
  refine ⟨dotWorld_sane, dotWorld_estimates, rfl, dotVars_ready _ _, ?_, ?_, ?_⟩
  · decide +kernel
  · decide +kernel
  · decide +kernel

/-- The exception raised. -/
def raised (r : Res (Cluster ℚ)) : Option Err :=
  match r with
  | .error e => some e
  | .ok _ => none

/-- Instance of C71: here the search does nest three deep — a bound of two is exceeded, a bound of three suffices, and
both deeper levels contribute peaks. -/
example : raised (extractSingle dotWorld dotHeap dotDef 2 1
      { dotVars none none with y := some [1, 5, 4, 3, 9, 3, 1], cres := some 2 }) = some (.other 5) ∧
    shown (extractSingle dotWorld dotHeap dotDef 3 1
      { dotVars none none with y := some [1, 5, 4, 3, 9, 3, 1], cres := some 2 }) =
      some [(7, [0, 1]), (7, [1, 5]), (7, [2, 4]), (7, [3, 3]), (7, [4, 9]), (7, [5, 3])] := by
  refine ⟨by decide +kernel, by decide +kernel⟩

end Verif.Parts.Extract
