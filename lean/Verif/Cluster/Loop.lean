import Verif.Cluster.Model

/-!
# The clustering skeleton of the main extraction loop

`PeakExtraction.extract_single` — src/diffpy/srmise/peakextraction.py:851-1341 — reduced to what
happens to the table of clusters and to the parallel list `mclusters` of model clusters, of which
only the slice (the extent of the cluster) is kept.  The fits in between do not touch either.
-/

namespace Verif.Cluster

variable {α : Type} [AddCommGroup α] [LinearOrder α]

/-- `dclusters` together with the slices of `mclusters`. -/
structure Extraction (α : Type) where
  dc : State α
  slices : List (ℕ × ℕ)

/-- The slice part of `ModelCluster.join_adjacent(m1, m2)` — modelcluster.py:816-836: order by slice
start, raise ValueError unless the right one starts where the left one stops. -/
def joinSlices (m1 m2 : ℕ × ℕ) : Except Outcome (ℕ × ℕ) :=
  let left := if m1.1 < m2.1 then m1 else m2
  let right := if m1.1 < m2.1 then m2 else m1
  if right.1 ≠ left.2 then .error .valueError else .ok (left.1, right.2)

/-- The loop `for idx in adjacent[-1:0:-1]` — peakextraction.py:1099-1332 — given the indices in the
order visited: join `mclusters[idx-1]` and `mclusters[idx]`, store at `idx-1`, delete `idx`. -/
def joinLoop : List ℕ → List (ℕ × ℕ) → Except Outcome (List (ℕ × ℕ))
  | [], ms => .ok ms
  | idx :: rest, ms =>
    match joinSlices (row ms (idx - 1)) (row ms idx) with
    | .error e => .error e
    | .ok j => joinLoop rest ((ms.set (idx - 1) j).eraseIdx idx)

/-- Start of `extract_single` — peakextraction.py:851-869: one model cluster with the slice of the
only data cluster. -/
def Extraction.start (s : State α) : Extraction α := ⟨s, [cut s 0]⟩

/-- Result of one pass through the body of the `for step in dclusters` loop. -/
inductive StepResult (α : Type)
  | next (e : Extraction α)
  | finished (e : Extraction α)
  | raised (o : Outcome)
  | assertion

/-- One iteration of the main loop — peakextraction.py:880-914 (update of `mclusters`, newly adjacent
clusters), 920 and 923 (the two assertions), 1099-1332 (joining), 1334-1336 (combining). -/
def Extraction.step (e : Extraction α) : StepResult α :=
  match next e.dc with
  | (.stopIteration, s) => .finished { e with dc := s }
  | (.ok, s) =>
    let last := s.lastcluster.getD 0
    -- Update mclusters
    let ms := if s.clusters.length > e.slices.length then e.slices.insertIdx last (cut s last)
      else e.slices.set last (cut s last)
    match findAdjacent s with
    | .error o => .raised o
    | .ok adj =>
      let adjacent := adj.flatten
      if s.clusters.length ≠ ms.length then .assertion
      else if 3 < adjacent.length then .assertion
      else
        match joinLoop (adjacent.tail.reverse) ms with
        | .error o => .raised o
        | .ok ms' =>
          if adjacent.length > 0 then
            match combine s [adjacent] with
            | (.ok, s') => .next ⟨s', ms'⟩
            | (o, _) => .raised o
          else .next ⟨s, ms'⟩
  | (o, _) => .raised o

/-- The whole loop: `ExtractLoop e k e'` when it runs `k` iterations from `e`, raises nothing and
ends with `e'`. -/
inductive ExtractLoop : Extraction α → ℕ → Extraction α → Prop
  | stop {e e' : Extraction α} : e.step = .finished e' → ExtractLoop e 0 e'
  | step {e e' e'' : Extraction α} {k : ℕ} :
      e.step = .next e' → ExtractLoop e' k e'' → ExtractLoop e (k + 1) e''

end Verif.Cluster
