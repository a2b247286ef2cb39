import Verif.Py.Basic
import Mathlib.Algebra.Order.Ring.Int

/-!
# Model of `src/diffpy/srmise/srmiselog.py`

The module's global state and what `logging` does with levels.
-/

namespace Verif.Srmiselog

open Verif.Py

/-! ### Levels -/

/-- A level as the functions accept it. -/
inductive Lv
  | num (n : ℤ)
  | str (s : String)
  deriving DecidableEq

/-- `LEVELS.get(level, level)` — srmiselog.py:52-58, 103, 121. -/
def lookup : Lv → Lv
  | .num n => .num n
  | .str s =>
    if s = "debug" then .num 10
    else if s = "info" then .num 20
    else if s = "warning" then .num 30
    else if s = "error" then .num 40
    else if s = "critical" then .num 50
    else .str s

/-- `logging._checkLevel` (Python's standard library): integers are accepted, of the strings the names of levels in
capital letters, anything else raises ValueError. -/
def checkLevel : Lv → Res ℤ
  | .num n => .ok n
  | .str s =>
    if s = "DEBUG" then .ok 10
    else if s = "INFO" then .ok 20
    else if s = "WARNING" ∨ s = "WARN" then .ok 30
    else if s = "ERROR" then .ok 40
    else if s = "CRITICAL" ∨ s = "FATAL" then .ok 50
    else if s = "NOTSET" then .ok 0
    else .error .value

/-- A file handler: its level, and whether it was added to the logger. -/
structure Handler where
  level : ℤ
  attached : Bool
  deriving DecidableEq

/-- The global state: the level of the logger, of the logger above it (Python's root logger, 30 by default), of the
stream handler `ch`, all file handlers ever made; `fh` is the last of them, None if there is none. -/
structure Log where
  logger : ℤ
  root : ℤ
  ch : ℤ
  files : List Handler

/-- After import — srmiselog.py:49-73. -/
def Log.init : Log := ⟨20, 30, 20, []⟩

/-- `logger.getEffectiveLevel()` (standard library): level 0 means that of the logger above. -/
def Log.effective (s : Log) : ℤ := if s.logger = 0 then s.root else s.logger

/-- `if level < logger.getEffectiveLevel(): logger.setLevel(level)` — srmiselog.py:105-106, 123-124; a string cannot be
compared with a number. -/
def lower (s : Log) : Lv → Log × Option Err
  | .num n => (if n < s.effective then { s with logger := n } else s, none)
  | .str _ => (s, some .type)

/-- `setlevel(level)` — srmiselog.py:113-124. -/
def setlevel (s : Log) (level : Lv) : Log × Option Err :=
  match checkLevel (lookup level) with
  | .error e => (s, some e)
  | .ok n => lower { s with ch := n } (lookup level)

/-- `fh.setLevel(n)`. -/
def setLast (files : List Handler) (n : ℤ) : List Handler :=
  match files.getLast? with
  | none => files
  | some h => files.dropLast ++ [{ h with level := n }]

/-- `setfilelevel(level)` — srmiselog.py:95-110.  SrMiseLogError is `other 0`. -/
def setfilelevel (s : Log) (level : Lv) : Log × Option Err :=
  if s.files.isEmpty then (s, some (.other 0))
  else match checkLevel (lookup level) with
    | .error e => (s, some e)
    | .ok n => lower { s with files := setLast s.files n } (lookup level)

/-- `addfilelog(filename, level)` — srmiselog.py:78-92, for a file that can be opened: `fh` is replaced before its level
is set, and it is added to the logger last. -/
def addfilelog (s : Log) (level : Lv) : Log × Option Err :=
  match checkLevel level with
  | .error e => ({ s with files := s.files ++ [⟨0, false⟩] }, some e)
  | .ok n => ({ s with files := s.files ++ [⟨n, true⟩] }, none)

/-- The calls. -/
inductive LogOp
  | setlevel (l : Lv)
  | setfilelevel (l : Lv)
  | addfilelog (l : Lv)

/-- One call; a raised exception is caught by the caller. -/
def LogOp.run (s : Log) : LogOp → Log
  | .setlevel l => (Srmiselog.setlevel s l).1
  | .setfilelevel l => (Srmiselog.setfilelevel s l).1
  | .addfilelog l => (Srmiselog.addfilelog s l).1

/-- Is a message of level `m` shown on stdout?  (`logging`: the logger lets it pass, and the handler.) -/
def Log.shown (s : Log) (m : ℤ) : Bool := decide (s.effective ≤ m) && decide (s.ch ≤ m)

/-- Is it written by a file handler? -/
def Log.written (s : Log) (h : Handler) (m : ℤ) : Bool := h.attached && decide (s.effective ≤ m) && decide (h.level ≤ m)

/-! ### Live plots -/

/-- `liveplotting(lp, w)` — srmiselog.py:127-150: the globals (liveplots, wait); an argument that is no boolean is
`none`. -/
def liveplotting (s : Bool × Bool) (lp w : Option Bool) : (Bool × Bool) × Option Err :=
  match lp with
  | none => (s, some .value)
  | some b =>
    match w with
    | none => ((b, s.2), some .value)
    | some c => ((b, c), none)

/-! ### Tracing -/

/-- `TracePeaks` — srmiselog.py:156-177; `P` is what is traced. -/
structure Tracer (P : Type) where
  call : ℤ
  counter : ℕ
  recursion : ℤ
  trace : List (ℤ × ℕ × P)     -- recursion, counter and content of the emitted traces

/-- `reset_trace` — srmiselog.py:340-344. -/
def Tracer.reset {P : Type} (t : Tracer P) : Tracer P := { t with call := 0, counter := 0, recursion := 0 }

/-- `setfilter(filter)` — srmiselog.py:347-348: the conjunction; an empty list is a SyntaxError (`other 1`). -/
def setfilter {P : Type} (filters : List (ℤ → ℕ → P → Bool)) : Res (ℤ → ℕ → P → Bool) :=
  if filters.isEmpty then .error (.other 1)
  else .ok (fun r c p => filters.all (fun f => f r c p))

/-- The calls made to the tracer while peaks are extracted. -/
inductive TrOp (P : Type)
  | pushc
  | popc
  | pushr
  | popr
  | emit (p : P)

/-- One call — srmiselog.py:179-193 and 318-338; traces are stored or written. -/
def TrOp.run {P : Type} (filter : ℤ → ℕ → P → Bool) (t : Tracer P) : TrOp P → Tracer P
  | .pushc =>
    let t := if t.call = 0 then t.reset else t
    { t with call := t.call + 1 }
  | .popc => { t with call := t.call - 1 }
  | .pushr => { t with recursion := t.recursion + 1 }
  | .popr => { t with recursion := t.recursion - 1 }
  | .emit p =>
    if filter t.recursion t.counter p then
      { t with trace := t.trace ++ [(t.recursion, t.counter, p)], counter := t.counter + 1 }
    else t

/-- A sequence of calls. -/
def runOps {P : Type} (filter : ℤ → ℕ → P → Bool) (t : Tracer P) (ops : List (TrOp P)) : Tracer P :=
  ops.foldl (fun t o => o.run filter t) t

/-- `readstr` of a trace — srmiselog.py:260-316, the recursion and counter of the result; `file` are those in the file. -/
def readstr {P : Type} (t : Tracer P) (file : Option ℤ × Option ℕ) : Res (ℤ × ℕ) :=
  match file.1 with
  | none => .error .dataFormat
  | some _ =>
    match file.2 with
    | none => .error .dataFormat
    | some _ => .ok (t.recursion, t.counter)

end Verif.Srmiselog
