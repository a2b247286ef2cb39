import Verif.Cluster.Units

/-!
# Property C116: when two clusterings are equal (`src/diffpy/srmise/dataclusters.py:87-104`)

## Model
-/

set_option linter.unusedSectionVars false

namespace Verif.Cluster

section

variable {α : Type} [AddCommGroup α] [LinearOrder α]

/-- `np.array_equal` of arrays of floating-point numbers; `eq` is `==` of two of these (false for NaN and itself). -/
def arrayEqual (eq : α → α → Bool) : List α → List α → Bool
  | [], [] => true
  | a :: as, b :: bs => eq a b && arrayEqual eq as bs
  | _, _ => false

/-- `self == other` for another DataClusters — dataclusters.py:87-104.  The constants INIT, READY, CLUSTERING, DONE are those of every object
(unless somebody assigns to them).  For anything else the answer is False (88-89). -/
def same (eq : α → α → Bool) (s t : State α) : Bool :=
  arrayEqual eq s.x t.x && arrayEqual eq s.y t.y && decide (s.dataOrder = t.dataOrder) && decide (s.clusters = t.clusters) &&
    eq s.res t.res && decide (s.currentIdx = t.currentIdx) && decide (s.lastcluster = t.lastcluster) &&
    decide (s.lastpoint = t.lastpoint) && decide (s.status = t.status)

/-! ## Specification -/

/-- The numbers of an object. -/
def numbers (s : State α) : List α := s.x ++ s.y ++ [s.res]

/-- No number is NaN: `==` is equality of numbers. -/
def Plain (eq : α → α → Bool) (l : List α) : Prop := ∀ a ∈ l, ∀ b, eq a b = true ↔ a = b

/-- The answers to all questions one can ask, now and after any calls. -/
def Alike (s t : State α) : Prop :=
  ∀ calls, (history s calls).1 = (history t calls).1 ∧ (history s calls).2.clusters = (history t calls).2.clusters ∧
    (history s calls).2.status = (history t calls).2.status ∧ (history s calls).2.lastcluster = (history t calls).2.lastcluster ∧
    (history s calls).2.lastpoint = (history t calls).2.lastpoint ∧ (∀ i, isFull (history s calls).2 i = isFull (history t calls).2 i) ∧
    (∀ i, findNearest (history s calls).2 i = findNearest (history t calls).2 i) ∧
    (∀ v, findNearest2 (history s calls).2 v = findNearest2 (history t calls).2 v) ∧
    findAdjacent (history s calls).2 = findAdjacent (history t calls).2 ∧ (∀ i, cut (history s calls).2 i = cut (history t calls).2 i)

/-! ## Lemmas -/

variable [IsOrderedAddMonoid α]

variable {eq : α → α → Bool} {x y : List α} {res : α} {order : List ℕ} {s t f : State α}

theorem arrayEqual_iff : ∀ {l m : List α}, Plain eq l → (arrayEqual eq l m = true ↔ l = m)
  | [], [], _ => by simp [arrayEqual]
  | [], b :: bs, _ => by simp [arrayEqual]
  | a :: as, [], _ => by simp [arrayEqual]
  | a :: as, b :: bs, h => by
    have ih := arrayEqual_iff (l := as) (m := bs) (fun c hc => h c (List.mem_cons_of_mem _ hc))
    simp only [arrayEqual, Bool.and_eq_true, ih, h a (List.mem_cons_self) b, List.cons.injEq]

theorem arrayEqual_nan {l : List α} : ∀ {m : List α} {a : α}, a ∈ l → (∀ b, eq a b = false) → arrayEqual eq l m = false := by
  induction l with
  | nil => intro m a ha; cases ha
  | cons c l ih =>
    intro m a ha hb
    cases m with
    | nil => rfl
    | cons d m =>
      unfold arrayEqual
      rcases List.mem_cons.1 ha with rfl | ha
      · rw [hb d]; rfl
      · rw [ih ha hb, Bool.and_false]

/-- `__next__` looks at everything but `lastcluster_idx`, and a call that clusters a point sets it. -/
theorem next_last (l : Option ℕ) (h : (next s).1 = .ok) : next { s with lastcluster := l } = next s := by
  unfold next at h ⊢
  obtain ⟨sx, sy, sr, so, sc, si, sl, sp, st⟩ := s
  cases st with
  | init => cases h
  | done => cases h
  | ready | clustering =>
    simp only at h ⊢
    split at h
    · rename_i e he
      subst h
      exfalso
      have hne : ∀ cur near u, scan sx sc so cur near u ≠ .error .ok := by
        intro cur
        induction cur with
        | zero => intro near u h'; simp [scan] at h'
        | succ c ih =>
          intro near u h'
          rw [scan] at h'
          split at h'
          · split at h'
            · simp at h'
            · exact ih _ _ h'
          · simp at h'
      exact hne _ _ _ he
    · rename_i cur near u he
      split at h
      · cases h
      · rename_i hc
        rw [if_neg hc, if_neg hc]

/-! ## Theorems -/

/-- **C116.** Unless an object holds NaN, `==` means that all attributes are the same; so it is an equivalence (of such objects). -/
theorem c116_equal (h : Plain eq (numbers s)) : same eq s t = true ↔ s = t := by
  have hx : Plain eq s.x := fun a ha => h a (by simp [numbers, ha])
  have hy : Plain eq s.y := fun a ha => h a (by simp [numbers, ha])
  have hr := h s.res (by simp [numbers]) t.res
  unfold same
  simp only [Bool.and_eq_true, decide_eq_true_eq, arrayEqual_iff hx, arrayEqual_iff hy, hr]
  obtain ⟨x1, x2, x3, x4, x5, x6, x7, x8, x9⟩ := s
  obtain ⟨y1, y2, y3, y4, y5, y6, y7, y8, y9⟩ := t
  simp only [State.mk.injEq]
  tauto

/-- **C116.** Equal objects answer every question alike, and do so, and stay equal, after the same calls, whatever these raise. -/
theorem c116_alike (h : Plain eq (numbers s)) (he : same eq s t = true) :
    Alike s t ∧ ∀ calls, (Plain eq (numbers (history s calls).2) → same eq (history s calls).2 (history t calls).2 = true) := by
  have e := (c116_equal h).1 he
  subst e
  exact ⟨fun _ => ⟨rfl, rfl, rfl, rfl, rfl, fun _ => rfl, fun _ => rfl, fun _ => rfl, rfl, fun _ => rfl⟩,
    fun calls hp => (c116_equal hp).2 rfl⟩

/-- **C116.** An object that holds NaN is equal to none, not to itself. -/
theorem c116_nan {a : α} (ha : a ∈ numbers s) (hn : ∀ b, eq a b = false) : same eq s t = false := by
  unfold numbers at ha
  rcases List.mem_append.1 ha with ha | ha
  · rcases List.mem_append.1 ha with ha | ha
    · unfold same; rw [arrayEqual_nan ha hn]; simp
    · unfold same; rw [arrayEqual_nan ha hn]; simp
  · rw [List.mem_singleton] at ha
    subst ha
    unfold same; rw [hn]; simp

/-- **C116.** After any histories, two objects of the same data and resolution are equal once both have been reset. -/
theorem c116_reset (hx : Nondecreasing x) (ho : IsArgsort y order) (hp : Plain eq (x ++ y ++ [res]))
    (hs : Reachable x y res order s) (ht : Reachable x y res order t) : same eq (reset s).2 (reset t).2 = true := by
  obtain ⟨f, hx0, hf⟩ : ∃ f, x ≠ [] ∧ mk x y res order = .ok f := by
    clear ht
    induction hs with
    | mk h1 h2 => exact ⟨_, h1, h2⟩
    | next _ ih => exact ih
    | reset _ ih => exact ih
    | combine _ _ ih => exact ih
  have e1 := (c07_reset_replays hx ho hs hx0 hf).2.1
  have e2 := (c07_reset_replays hx ho ht hx0 hf).2.1
  rw [e1, e2]
  refine (c116_equal ?_).2 rfl
  obtain ⟨-, hi⟩ := inv_reachable hx ho (Reachable.mk hx0 hf)
  unfold numbers
  simp only [hi.sx, hi.sy, hi.sres]
  exact hp

/-- **C116, finding.** A reset object is not equal to a new one of the same data ... -/
theorem c116_reset_not_new (hx : Nondecreasing x) (ho : IsArgsort y order) (hs : Reachable x y res order s) (hf : mk x y res order = .ok f)
    (hx0 : x ≠ []) : same eq (reset s).2 f = false := by
  have e1 := (c07_reset_replays hx ho hs hx0 hf).2.1
  have hl : f.lastcluster = none := by
    unfold mk at hf
    split at hf
    · cases hf
    · split at hf
      · cases hf
      · split at hf <;> (simp only [Except.ok.injEq] at hf; subst hf; rfl)
  rw [e1]
  unfold same
  simp [hl]

/-- **C116.** ... but as soon as `next` has clustered a point of both they are, and remain so under the same calls. -/
theorem c116_then_equal (hx : Nondecreasing x) (ho : IsArgsort y order) (hp : Plain eq (x ++ y ++ [res])) (hs : Reachable x y res order s)
    (hf : mk x y res order = .ok f) (hx0 : x ≠ []) (hok : (next f).1 = .ok) :
    same eq (next (reset s).2).2 (next f).2 = true ∧
    ∀ calls, history (next (reset s).2).2 calls = history (next f).2 calls := by
  have e1 := (c07_reset_replays hx ho hs hx0 hf).2.1
  rw [e1, next_last (some 0) hok]
  refine ⟨(c116_equal ?_).2 rfl, fun _ => rfl⟩
  obtain ⟨-, hi⟩ := inv_reachable hx ho (Reachable.next (Reachable.mk hx0 hf))
  unfold numbers
  simp only [hi.sx, hi.sy, hi.sres]
  exact hp

/-! ## Instances -/

end

example : Plain (fun a b : ℤ => decide (a = b)) (numbers exS) := fun a _ b => by simp

example : same (fun a b : ℤ => decide (a = b)) exS exS = true ∧ same (fun a b : ℤ => decide (a = b)) exS (next exS).2 = false := by decide

/-- `==` for which 7 stands for NaN. -/
example : same (fun a b : ℤ => decide (a = b ∧ a ≠ 7)) exS exS = false :=
  c116_nan (a := 7) (by decide) (by intro b; simp)

example : (next exS).1 = .ok ∧ same (fun a b : ℤ => decide (a = b)) (reset (next exS).2).2 exS = false ∧
    same (fun a b : ℤ => decide (a = b)) (next (reset (next exS).2).2).2 (next exS).2 = true := by decide

end Verif.Cluster
