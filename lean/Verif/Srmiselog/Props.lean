import Verif.Srmiselog.Model

/-!
# C49, C50: log levels, traces
-/

namespace Verif.Srmiselog

open Verif.Py

/-! ### C49 -/

/-- The level a number or one of the five documented names stands for (values of Python's `logging`). -/
inductive Names : Lv → ℤ → Prop
  | num (n : ℤ) : Names (.num n) n
  | debug : Names (.str "debug") 10
  | info : Names (.str "info") 20
  | warning : Names (.str "warning") 30
  | error : Names (.str "error") 40
  | critical : Names (.str "critical") 50

theorem lookup_names {l : Lv} {n : ℤ} (h : Names l n) : lookup l = .num n := by
  cases h <;> rfl

/-- A level the functions are meant for: one of the five lower-case names, or a positive number; with its value. -/
def IsLevel (l : Lv) (n : ℤ) : Prop := 0 < n ∧ Names l n

/-- The calls of a history use such levels; `addfilelog` only numbers not below INFO. -/
def Sensible : LogOp → Prop
  | .setlevel l => ∃ n, IsLevel l n
  | .setfilelevel l => ∃ n, IsLevel l n
  | .addfilelog l => ∃ n : ℤ, l = .num n ∧ 20 ≤ n

/-- The logger lets pass what some handler wants. -/
structure LogInv (s : Log) : Prop where
  pos : 0 < s.logger
  info : s.logger ≤ 20
  chle : s.logger ≤ s.ch
  files : ∀ h ∈ s.files, h.attached = true ∧ s.logger ≤ h.level

theorem lower_num (s : Log) (n : ℤ) (hs : 0 < s.logger) :
    (lower s (.num n)).1 = { s with logger := min n s.logger } ∧ (lower s (.num n)).2 = none := by
  have he : s.effective = s.logger := if_neg (by omega)
  simp only [lower, he]
  refine ⟨?_, by trivial⟩
  by_cases h : n < s.logger
  · rw [if_pos h, min_eq_left h.le]
  · rw [if_neg h, min_eq_right (not_lt.1 h)]

theorem setLast_mem {files : List Handler} {n : ℤ} {h : Handler} (hm : h ∈ setLast files n) :
    h ∈ files ∨ ∃ g ∈ files, h = { g with level := n } := by
  unfold setLast at hm
  cases hl : files.getLast? with
  | none => rw [hl] at hm; exact Or.inl hm
  | some g =>
    rw [hl] at hm
    rcases List.mem_append.1 hm with hm | hm
    · exact Or.inl ((List.dropLast_sublist files).subset hm)
    · simp at hm
      exact Or.inr ⟨g, List.mem_of_getLast? hl, hm⟩

theorem inv_run {s : Log} (inv : LogInv s) (o : LogOp) (ho : Sensible o) : LogInv (o.run s) := by
  cases o with
  | setlevel l =>
    obtain ⟨n, hn, hl⟩ := ho
    replace hl := lookup_names hl
    have : (LogOp.setlevel l).run s = { s with ch := n, logger := min n s.logger } := by
      simp only [LogOp.run, setlevel, hl, checkLevel]
      exact (lower_num { s with ch := n } n inv.pos).1
    rw [this]
    exact ⟨lt_min hn inv.pos, (min_le_right _ _).trans inv.info, min_le_left _ _,
      fun h hh => ⟨(inv.files h hh).1, (min_le_right _ _).trans (inv.files h hh).2⟩⟩
  | setfilelevel l =>
    obtain ⟨n, hn, hl⟩ := ho
    replace hl := lookup_names hl
    by_cases he : s.files.isEmpty = true
    · have : (LogOp.setfilelevel l).run s = s := by simp only [LogOp.run, setfilelevel, if_pos he]
      rw [this]; exact inv
    · have : (LogOp.setfilelevel l).run s = { s with files := setLast s.files n, logger := min n s.logger } := by
        simp only [LogOp.run, setfilelevel, if_neg he, hl, checkLevel]
        exact (lower_num { s with files := setLast s.files n } n inv.pos).1
      rw [this]
      refine ⟨lt_min hn inv.pos, (min_le_right _ _).trans inv.info, (min_le_right _ _).trans inv.chle, ?_⟩
      intro h hh
      rcases setLast_mem hh with hh | ⟨g, hg, rfl⟩
      · exact ⟨(inv.files h hh).1, (min_le_right _ _).trans (inv.files h hh).2⟩
      · exact ⟨(inv.files g hg).1, min_le_left _ _⟩
  | addfilelog l =>
    obtain ⟨n, rfl, hn⟩ := ho
    have : (LogOp.addfilelog (.num n)).run s = { s with files := s.files ++ [⟨n, true⟩] } := rfl
    rw [this]
    refine ⟨inv.pos, inv.info, inv.chle, ?_⟩
    intro h hh
    rcases List.mem_append.1 hh with hh | hh
    · exact inv.files h hh
    · simp at hh; subst hh; exact ⟨rfl, inv.info.trans hn⟩

theorem inv_history (ops : List LogOp) (h : ∀ o ∈ ops, Sensible o) (s : Log) (inv : LogInv s) :
    LogInv (ops.foldl LogOp.run s) := by
  induction ops generalizing s with
  | nil => exact inv
  | cons o ops ih => exact ih (fun o' ho' => h o' (by simp [ho'])) _ (inv_run inv o (h o (by simp)))

/-- **C49.** After any history of calls with sensible levels, stdout shows exactly the messages that are at or above the
level of stdout, and every log file gets exactly those at or above its own level: no handler's setting hides messages
from another. -/
theorem c49_levels_independent (ops : List LogOp) (h : ∀ o ∈ ops, Sensible o) :
    let s := ops.foldl LogOp.run Log.init
    (∀ m, s.shown m = true ↔ s.ch ≤ m) ∧ ∀ f ∈ s.files, ∀ m, s.written f m = true ↔ f.level ≤ m := by
  intro s
  have inv : LogInv s := inv_history ops h _ ⟨by decide, by decide, by decide, by simp [Log.init]⟩
  have he : s.effective = s.logger := if_neg (by have := inv.pos; omega)
  refine ⟨fun m => ?_, fun f hf m => ?_⟩
  · simp only [Log.shown, he, Bool.and_eq_true, decide_eq_true_eq]
    have := inv.chle
    omega
  · obtain ⟨h1, h2⟩ := inv.files f hf
    simp only [Log.written, he, h1, Bool.true_and, Bool.and_eq_true, decide_eq_true_eq]
    omega

/-- **C49.** What the calls do to the levels: `setlevel` sets that of stdout and no file's; `setfilelevel` that of the
file log opened last and nothing else, and raises SrMiseLogError if none was opened; `addfilelog` adds one. -/
theorem c49_effect (s : Log) (hs : 0 < s.logger) (l : Lv) (n : ℤ) (hl : Names l n) :
    ((setlevel s l).1.ch = n ∧ (setlevel s l).1.files = s.files ∧ (setlevel s l).2 = none) ∧
    (s.files = [] → setfilelevel s l = (s, some (.other 0))) ∧
    (∀ fs f, s.files = fs ++ [f] → (setfilelevel s l).1.files = fs ++ [{ f with level := n }] ∧
      (setfilelevel s l).1.ch = s.ch ∧ (setfilelevel s l).2 = none) ∧
    addfilelog s (.num n) = ({ s with files := s.files ++ [⟨n, true⟩] }, none) := by
  replace hl := lookup_names hl
  refine ⟨?_, ?_, ?_, rfl⟩
  · have : setlevel s l = lower { s with ch := n } (.num n) := by simp only [setlevel, hl, checkLevel]
    obtain ⟨h1, h2⟩ := lower_num { s with ch := n } n hs
    rw [this, h1, h2]
    exact ⟨rfl, rfl, rfl⟩
  · intro e
    simp [setfilelevel, e]
  · intro fs f e
    have hne : ¬ (s.files.isEmpty = true) := by rw [e]; simp
    have : setfilelevel s l = lower { s with files := setLast s.files n } (.num n) := by
      simp only [setfilelevel, if_neg hne, hl, checkLevel]
    obtain ⟨h1, h2⟩ := lower_num { s with files := setLast s.files n } n hs
    rw [this, h1, h2]
    refine ⟨?_, rfl, rfl⟩
    simp [setLast, e]

/-- **C49, finding.** `addfilelog(name, DEBUG)` does not make the logger pass debug messages: the file does not get them. -/
theorem c49_addfilelog_debug : ∃ f, (addfilelog Log.init (.num 10)).1.files = [f] ∧ f.level = 10 ∧
    (addfilelog Log.init (.num 10)).1.written f 10 = false :=
  ⟨⟨10, true⟩, rfl, rfl, by decide⟩

/-- **C49, finding.** `setlevel(0)`, "everything", hides the messages of level INFO that were shown before. -/
theorem c49_notset_hides : Log.init.shown 20 = true ∧ (setlevel Log.init (.num 0)).1.shown 20 = false ∧
    (setlevel Log.init (.num 0)).2 = none := by decide

/-- **C49, finding.** The level names of `logging` in capitals raise TypeError, after the handler's level was changed;
`addfilelog` on the other hand accepts only those, and when given "debug" leaves a log file that gets no messages and
whose level can be set. -/
theorem c49_names : (setlevel Log.init (.str "ERROR")).2 = some .type ∧ (setlevel Log.init (.str "ERROR")).1.ch = 40 ∧
    (addfilelog Log.init (.str "debug")).2 = some .value ∧
    (setfilelevel (addfilelog Log.init (.str "debug")).1 (.str "debug")).2 = none ∧
    ∀ f ∈ (setfilelevel (addfilelog Log.init (.str "debug")).1 (.str "debug")).1.files, ∀ m,
      (setfilelevel (addfilelog Log.init (.str "debug")).1 (.str "debug")).1.written f m = false := by
  refine ⟨by decide, by decide, by decide, by decide, ?_⟩
  intro f hf m
  have : (setfilelevel (addfilelog Log.init (.str "debug")).1 (.str "debug")).1.files = [⟨10, false⟩] := by decide
  rw [this] at hf
  simp at hf
  subst hf
  rfl

/-- **C49.** `liveplotting(lp, w)` with two booleans sets both; otherwise ValueError — but with a bad `w` the first is
already set. -/
theorem c49_liveplotting (s : Bool × Bool) (lp w : Option Bool) :
    ((liveplotting s lp w).2 = none ↔ lp ≠ none ∧ w ≠ none) ∧
    (∀ a b, lp = some a → w = some b → (liveplotting s lp w).1 = (a, b)) ∧
    (lp = none → (liveplotting s lp w).1 = s) ∧
    (∀ a, lp = some a → w = none → (liveplotting s lp w).1 = (a, s.2)) := by
  cases lp <;> cases w <;> simp [liveplotting]

/-! ### C50 -/

variable {P : Type}

/-- Entries into and exits from tracer-aware functions, and levels of recursion, in a sequence of calls. -/
def calls : List (TrOp P) → ℤ
  | [] => 0
  | .pushc :: l => 1 + calls l
  | .popc :: l => -1 + calls l
  | _ :: l => calls l

/-- Levels of recursion entered less those left. -/
def depth : List (TrOp P) → ℤ
  | [] => 0
  | .pushr :: l => 1 + depth l
  | .popr :: l => -1 + depth l
  | _ :: l => depth l

/-- What should be traced: each emitted content that passes the filter, with its depth and its number. -/
def expected (filter : ℤ → ℕ → P → Bool) : ℤ → ℕ → List (TrOp P) → List (ℤ × ℕ × P)
  | _, _, [] => []
  | d, k, .emit p :: l => if filter d k p then (d, k, p) :: expected filter d (k + 1) l else expected filter d k l
  | d, k, .pushr :: l => expected filter (d + 1) k l
  | d, k, .popr :: l => expected filter (d - 1) k l
  | d, k, .pushc :: l => expected filter d k l
  | d, k, .popc :: l => expected filter d k l

theorem run_inside (filter : ℤ → ℕ → P → Bool) (ops : List (TrOp P)) (t : Tracer P)
    (h : ∀ pre post, ops = pre ++ .pushc :: post → t.call + calls pre ≠ 0) :
    let t' := runOps filter t ops
    t'.call = t.call + calls ops ∧ t'.recursion = t.recursion + depth ops ∧
    t'.trace = t.trace ++ expected filter t.recursion t.counter ops ∧
    t'.counter = t.counter + (expected filter t.recursion t.counter ops).length := by
  induction ops generalizing t with
  | nil => simp [runOps, calls, depth, expected]
  | cons o ops ih =>
    have step : runOps filter t (o :: ops) = runOps filter (o.run filter t) ops := rfl
    intro t'
    have key := ih (o.run filter t) (by
      intro pre post e
      have := h (o :: pre) post (by rw [e]; rfl)
      cases o with
      | pushc =>
        have h0 := h [] ops rfl
        simp only [calls, add_zero] at h0 this
        simp only [TrOp.run, if_neg h0]
        omega
      | popc => simp only [calls] at this; simp only [TrOp.run]; omega
      | pushr => simpa only [calls, TrOp.run] using this
      | popr => simpa only [calls, TrOp.run] using this
      | emit p =>
        simp only [calls] at this
        simp only [TrOp.run]
        by_cases hf : filter t.recursion t.counter p = true
        · rw [if_pos hf]; exact this
        · rw [if_neg hf]; exact this)
    change (runOps filter (o.run filter t) ops).call = _ ∧ _ at key
    have ht' : t' = runOps filter (o.run filter t) ops := step
    rw [ht']
    generalize runOps filter (o.run filter t) ops = t2 at key ⊢
    obtain ⟨k1, k2, k3, k4⟩ := key
    cases o with
    | pushc =>
      have h0 := h [] ops rfl
      simp only [calls, add_zero] at h0
      simp only [TrOp.run, if_neg h0] at k1 k2 k3 k4
      simp only [calls, depth, expected]
      exact ⟨by omega, k2, k3, k4⟩
    | popc =>
      simp only [TrOp.run] at k1 k2 k3 k4
      simp only [calls, depth, expected]
      exact ⟨by omega, k2, k3, k4⟩
    | pushr =>
      simp only [TrOp.run] at k1 k2 k3 k4
      simp only [calls, depth, expected]
      exact ⟨k1, by omega, k3, k4⟩
    | popr =>
      simp only [TrOp.run] at k1 k2 k3 k4
      simp only [calls, depth, expected]
      exact ⟨k1, by omega, k3, k4⟩
    | emit p =>
      simp only [TrOp.run] at k1 k2 k3 k4
      simp only [calls, depth, expected]
      by_cases hf : filter t.recursion t.counter p = true
      · simp only [if_pos hf] at k1 k2 k3 k4 ⊢
        refine ⟨k1, k2, ?_, ?_⟩
        · rw [k3, List.append_assoc]; rfl
        · rw [k4, List.length_cons]; omega
      · simp only [if_neg hf] at k1 k2 k3 k4 ⊢
        exact ⟨k1, k2, k3, k4⟩

/-- **C50.** An outermost call to a tracer-aware function (one made when no other is active) whatever happened before:
during it, and while it does not return, the traces emitted are exactly those that pass the filter, each with the
current depth of recursion and numbered 0, 1, 2, ...; when it has returned, with every function left that was entered
and every level of recursion, no call is active and the depth is 0. -/
theorem c50_trace (filter : ℤ → ℕ → P → Bool) (t : Tracer P) (h0 : t.call = 0) (ops : List (TrOp P))
    (hin : ∀ pre post, ops = pre ++ .pushc :: post → 0 ≤ calls pre) :
    let t' := runOps filter t (.pushc :: ops)
    t'.trace = t.trace ++ expected filter 0 0 ops ∧ t'.recursion = depth ops ∧ t'.call = 1 + calls ops ∧
    (calls ops = -1 → depth ops = 0 → t'.call = 0 ∧ t'.recursion = 0) := by
  have e : runOps filter t (.pushc :: ops) = runOps filter ⟨1, 0, 0, t.trace⟩ ops := by
    simp only [runOps, List.foldl_cons, TrOp.run, if_pos h0, Tracer.reset, zero_add]
  simp only [e]
  obtain ⟨h1, h2, h3, -⟩ := run_inside filter ops ⟨1, 0, 0, t.trace⟩ (by
    intro pre post e
    have := hin pre post e
    change (1 : ℤ) + calls pre ≠ 0
    omega)
  simp only [zero_add] at h1 h2 h3
  refine ⟨h3, h2, h1, fun a b => ⟨?_, ?_⟩⟩
  · rw [h1, a]; rfl
  · rw [h2, b]

/-- **C50.** The numbers of the traces of one outermost call are 0, 1, 2, ...: no two are written to the same file. -/
theorem c50_numbers (filter : ℤ → ℕ → P → Bool) (ops : List (TrOp P)) (d : ℤ) (k : ℕ) :
    (expected filter d k ops).map (fun e => e.2.1) = List.range' k (expected filter d k ops).length := by
  induction ops generalizing d k with
  | nil => rfl
  | cons o ops ih =>
    cases o with
    | emit p =>
      simp only [expected]
      by_cases hf : filter d k p = true
      · simp only [if_pos hf, List.map_cons, List.length_cons, List.range'_succ, ih]
      · simp only [if_neg hf, ih]
    | pushc => exact ih d k
    | popc => exact ih d k
    | pushr => exact ih _ k
    | popr => exact ih _ k

/-- **C50.** A filter given as a list of conditions lets pass exactly what meets all of them; the empty list is refused. -/
theorem c50_filter (filters : List (ℤ → ℕ → P → Bool)) :
    (filters = [] → setfilter filters = .error (.other 1)) ∧
    (filters ≠ [] → ∃ f, setfilter filters = .ok f ∧ ∀ r c p, f r c p = true ↔ ∀ g ∈ filters, g r c p = true) := by
  constructor
  · rintro rfl; rfl
  · intro h
    have : filters.isEmpty = false := by cases filters with | nil => exact absurd rfl h | cons _ _ => rfl
    refine ⟨fun r c p => filters.all (fun f => f r c p), by simp only [setfilter, this]; rfl, ?_⟩
    intro r c p
    simp

/-- **C50, finding.** An extraction ended by an exception never leaves the tracer-aware function: for the next one the
counters are not reset, and its depth of recursion is one too large. -/
theorem c50_exception_not_reset (filter : ℤ → ℕ → P → Bool) (t : Tracer P) (h0 : t.call = 0) (p : P)
    (hf : filter 2 0 p = true) :
    (runOps filter (runOps filter t [.pushc, .pushr]) [.pushc, .pushr, .emit p]).trace = t.trace ++ [(2, 0, p)] ∧
    (runOps filter (runOps filter t [.pushc, .pushr]) [.pushc, .pushr, .emit p, .popc, .popr]).call = 1 := by
  have h1 : ¬ ((1 : ℤ) = 0) := by decide
  constructor
  · simp [runOps, TrOp.run, h0, Tracer.reset, hf]
  · simp [runOps, TrOp.run, h0, Tracer.reset, hf]

/-- **C50, finding.** Reading a trace file gives the counter and depth of the tracer that reads, not those in the file. -/
theorem c50_read_ignores_file (t : Tracer P) (r : ℤ) (c : ℕ) : readstr t (some r, some c) = .ok (t.recursion, t.counter) := rfl

/-! ### Instances -/

/-- Instance: two handlers with different levels. -/
example : (∀ o ∈ [LogOp.addfilelog (.num 20), .setfilelevel (.str "debug"), .setlevel (.str "error")], Sensible o) ∧
    ([LogOp.addfilelog (.num 20), .setfilelevel (.str "debug"), .setlevel (.str "error")].foldl LogOp.run Log.init).shown 10 = false := by
  refine ⟨?_, by decide⟩
  intro o ho
  simp only [List.mem_cons, List.not_mem_nil, or_false] at ho
  rcases ho with rfl | rfl | rfl
  · exact ⟨20, rfl, by decide⟩
  · exact ⟨10, by decide, .debug⟩
  · exact ⟨40, by decide, .error⟩

/-- Instance: an extraction with a recursive one inside; a filter that lets depth 1 pass. -/
example : (runOps (fun r _ (_ : ℕ) => r == 1) ⟨0, 7, 5, []⟩
    [.pushc, .pushr, .emit 10, .pushc, .pushr, .emit 11, .popc, .popr, .emit 12, .popc, .popr]).trace =
    [(1, 0, 10), (1, 1, 12)] := by decide

end Verif.Srmiselog
