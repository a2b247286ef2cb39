import Verif.Extraction.Vars

/-!
# C92: `rng` is the caller's own list (`src/diffpy/srmise/peakextraction.py:168, 222-228`)

`PX.rng` is a value; here `rng` is what the code has: a reference to a Python list, or a tuple.
-/

namespace Verif.Extraction

open Verif.Py

variable {K : Type}

/-- The lists of a program: their two elements, and the number of lists made. -/
structure Cells (K : Type) where
  cell : ℕ → Option K × Option K
  next : ℕ

/-- `self.rng`: None, a tuple, a list. -/
inductive RngRef (K : Type)
  | unset
  | tuple (a b : Option K)
  | list (i : ℕ)

/-- What `self.rng` shows. -/
def RngRef.value (C : Cells K) : RngRef K → Option (Option K × Option K)
  | .unset => none
  | .tuple a b => some (a, b)
  | .list i => some (C.cell i)

/-- `l[0] = …; l[1] = …` -/
def Cells.put (C : Cells K) (i : ℕ) (v : Option K × Option K) : Cells K :=
  { C with cell := fun j => if j = i then v else C.cell j }

/-- `if self.rng[0] is None: self.rng[0] = self.x[0]` — peakextraction.py:225-228. -/
def filled (v : Option K × Option K) (x0 x1 : K) : Option K × Option K := (some (v.1.getD x0), some (v.2.getD x1))

/-- The step of `defaultvars()` for `rng` — peakextraction.py:222-228: a new list, or assignment to the elements of the
one that was given; a tuple does not support this (TypeError). -/
def rngStep (C : Cells K) (r : RngRef K) (x0 x1 : K) : Res Unit × Cells K × RngRef K :=
  match r with
  | .unset => (.ok (), { cell := (C.put C.next (some x0, some x1)).cell, next := C.next + 1 }, .list C.next)
  | .tuple (some a) (some b) => (.ok (), C, .tuple (some a) (some b))
  | .tuple a b => (.error .type, C, .tuple a b)
  | .list i => (.ok (), C.put i (filled (C.cell i) x0 x1), .list i)

/-- **C92.** For one object the step gives the range of C63: the missing ends are those of the data, given ones are kept;
it only fails for a tuple in which an end is missing; lists other than the object's own are not touched. -/
theorem c92_one (C : Cells K) (r : RngRef K) (x0 x1 : K) :
    ((rngStep C r x0 x1).1 = .ok () → (rngStep C r x0 x1).2.2.value (rngStep C r x0 x1).2.1 =
      some (some (((r.value C).bind Prod.fst).getD x0), some (((r.value C).bind Prod.snd).getD x1))) ∧
    ((rngStep C r x0 x1).1 ≠ .ok () ↔ ∃ a b, r = .tuple a b ∧ (a = none ∨ b = none)) ∧
    (∀ j < C.next, (∀ i, r = .list i → j ≠ i) → (rngStep C r x0 x1).2.1.cell j = C.cell j) := by
  unfold rngStep
  cases r with
  | unset =>
    refine ⟨fun _ => by simp [RngRef.value, Cells.put], by simp, ?_⟩
    intro j hj _
    simp [Cells.put, Nat.ne_of_lt hj]
  | tuple a b =>
    cases a <;> cases b <;> simp [RngRef.value]
  | list i =>
    refine ⟨fun _ => by simp [RngRef.value, Cells.put, filled], by simp, ?_⟩
    intro j _ h
    simp [Cells.put, h i rfl]

/-- **C92, finding.** The caller's list is changed exactly when it has an end that is None. -/
theorem c92_caller (C : Cells K) (i : ℕ) (x0 x1 : K) :
    (rngStep C (.list i) x0 x1).2.1.cell i ≠ C.cell i ↔ (C.cell i).1 = none ∨ (C.cell i).2 = none := by
  unfold rngStep
  simp only [Cells.put, if_true, filled]
  rcases h : C.cell i with ⟨_ | a, _ | b⟩ <;> simp

/-- **C92, finding.** A list with a missing end that is given to two objects: the second object gets the end of the data of
the first, not of its own. -/
theorem c92_shared (C : Cells K) (i : ℕ) (x0 x1 x0' x1' : K) :
    (RngRef.list i).value (rngStep (rngStep C (.list i) x0 x1).2.1 (.list i) x0' x1').2.1 =
      some (some ((C.cell i).1.getD x0), some ((C.cell i).2.getD x1)) := by
  simp [rngStep, RngRef.value, Cells.put, filled]

/-- **C92.** An object whose range is not given makes its own list: what happens to it later does not reach any other
list. -/
theorem c92_own (C : Cells K) (x0 x1 : K) : ∃ i, (rngStep C .unset x0 x1).2.2 = .list i ∧ i = C.next ∧
    (rngStep C .unset x0 x1).2.1.next = C.next + 1 := ⟨_, rfl, rfl, rfl⟩

/-- Lists for the examples: `[None, 10]`. -/
def exCells : Cells ℚ := ⟨fun _ => (none, some 10), 1⟩

example := c92_one exCells (.list 0) 0 20
example : (rngStep exCells (.tuple none (some 10)) 0 20).1 = .error .type := rfl
example : (rngStep exCells (.list 0) 0 20).2.1.cell 0 = (some 0, some 10) := rfl
example : (rngStep exCells (.list 0) 0 20).2.1.cell 0 ≠ exCells.cell 0 := (c92_caller exCells 0 0 20).2 (Or.inl rfl)
example := c92_shared exCells 0 0 20 5 30
example := c92_own exCells 0 20

end Verif.Extraction
