import Verif.Multimodel.StateModel

/-!
# Model of `MultimodelSelection.plot3dclassprobs` (`src/diffpy/srmise/multimodelselection.py:578-762`)

What is drawn: the classes shown and their polygons.  Everything of matplotlib (colours, axes, title, colour bar) is left open: each may
raise whatever it likes.  Class indices are non-negative.
-/

namespace Verif.Parts.Plot3d

open Verif.Py Verif.Multimodel

variable {R D : Type}

/-- `[self.classprobs[dG][i] for dG in dGs]` — multimodelselection.py:641. -/
def column (st : State R D) (i : ℕ) : List D → Res (List ℝ)
  | [] => .ok []
  | d :: ds =>
    match lookNth st.classprobs d i with
    | .error e => .error e
    | .ok y => match column st i ds with
      | .error e => .error e
      | .ok ys => .ok (y :: ys)

/-- `np.concatenate([[p0], zip(xs, ys), [p1], [p0]])` — multimodelselection.py:645-649.  Where `zip` returns a list (`zipList`, Python 2)
a closed polygon; where it returns an iterator (Python 3, which `pyproject.toml:18` demands) numpy makes a zero-dimensional array of it,
and `concatenate` raises ValueError. -/
def polygon (zipList : Bool) (xs ys : List ℝ) : Res (List (ℝ × ℝ)) :=
  match xs.head?, xs.getLast? with
  | some a, some b => if zipList then .ok ((a, 0) :: (List.zip xs ys ++ [(b, 0), (a, 0)])) else .error .value
  | _, _ => .error .index

/-- The loop over the classes — multimodelselection.py:640-650: the labels with their polygons.  `np.max([])` raises ValueError. -/
noncomputable def rows (zipList : Bool) (st : State R D) (dGs : List D) (xs : List ℝ) (lo hi : ℝ) : List ℕ → Res (List (ℕ × List (ℝ × ℝ)))
  | [] => .ok []
  | i :: is =>
    match column st i dGs with
    | .error e => .error e
    | .ok ys =>
      match ys.max? with
      | none => .error .value
      | some m =>
        if lo ≤ m ∧ m ≤ hi then
          match polygon zipList xs ys with
          | .error e => .error e
          | .ok p => match rows zipList st dGs xs lo hi is with
            | .error e => .error e
            | .ok r => .ok ((i, p) :: r)
        else rows zipList st dGs xs lo hi is

/-- `[len(self.classes[z]) for z in zlabels]` — multimodelselection.py:653. -/
def sizes (st : State R D) : List ℕ → Res (List ℕ)
  | [] => .ok []
  | z :: zs =>
    match nth st.classes z with
    | .error e => .error e
    | .ok c => match sizes st zs with
      | .error e => .error e
      | .ok r => .ok (c.length :: r)

/-- `plot3dclassprobs(dGs, highlight, classes, probfilter, scale, ...)` — multimodelselection.py:578-762.  `xs` is `dGs * scale` (an exception
for a list and a float); `paint` the colours of the polygons (lines 653-688, given the sizes of the classes), `lines` the highlights and
the axes up to line 704 (given the labels), `rest` the title and the colour bar.  `ax.set_ylim3d(zs[0], zs[-1])`, line 705, raises IndexError
if no class is shown. -/
noncomputable def plot3d (zipList : Bool) (st : State R D) (dGs : List D) (xs : Res (List ℝ)) (lo hi : ℝ) (classes : List ℕ)
    (paint lines : List ℕ → Res Unit) (rest : Res Unit) : Res (List (ℕ × List (ℝ × ℝ))) :=
  match xs with
  | .error e => .error e
  | .ok xs =>
    match rows zipList st dGs xs lo hi classes with
    | .error e => .error e
    | .ok r =>
      match sizes st (r.map Prod.fst) with
      | .error e => .error e
      | .ok fc =>
        match paint fc, lines (r.map Prod.fst) with
        | .error e, _ => .error e
        | _, .error e => .error e
        | .ok _, .ok _ =>
          match r with
          | [] => .error .index
          | _ :: _ => match rest with
            | .error e => .error e
            | .ok _ => .ok r

end Verif.Parts.Plot3d
