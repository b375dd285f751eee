import Verif.Model.Sampling
import Mathlib.Logic.Relation
import Mathlib.Logic.Function.Basic
/-!
# Model of concurrent sampling jobs
(`Samples.generate_and_save`, `/repo/src/fastprof/sampling.py:277-314`)

Any number of processes run `generate_and_save` on a shared directory.  Every access to the file
system is a separate atomic step, so that processes interleave between them; a process may be
killed between any two steps.

Simplifications.  `np.save` is two steps: opening the file, which leaves it empty, and closing it
with all data; two processes writing at once leave the data of the one closing last.  The sampler is
an arbitrary source of sample lists (or of an exception).  The optional debug CSV file
(sampling.py:311) is not modelled.  The dict `self.dists` is the list of its assignments, in order,
an assignment of generated samples being recorded at the end of the loop body.
-/
namespace Verif
namespace Lock

/-- What is in a results file: a truncated array, or a complete one. -/
inductive Content where
  | part
  | complete (s : List ℝ)

/-- What `np.load` gets from the file: truncated data cannot be read. -/
def Content.read : Content → Option (List ℝ)
  | .part => none
  | .complete s => some s

/-- Positions in the body of the loop over hypotheses (sampling.py:297-313). -/
inductive Pc where
  /-- about to test for the results file (line 298) -/
  | check
  /-- about to load it (line 301) -/
  | load
  /-- about to test for the lock (line 303) -/
  | checkLock
  /-- about to create the lock (line 307) -/
  | lock
  /-- generating (line 309) -/
  | gen
  /-- about to open the results file for writing these samples (line 310) -/
  | opn (s : List ℝ)
  /-- about to finish writing it (line 310) -/
  | write (s : List ℝ)
  /-- about to remove the lock (line 313) -/
  | unlock (s : List ℝ)

/-- Whether the process still runs, has raised an exception, or was killed. -/
inductive Status where
  | running
  | raised (e : PyErr)
  | crashed

/-- A process inside `generate_and_save(ntoys, break_locks, sort_before_saving)`; `todo` are the
hypotheses left, the first one being processed; with none left the call has returned. -/
structure Proc where
  ntoys : ℕ
  breakLocks : Bool
  sortSave : Bool
  todo : List Hypo
  pc : Pc
  dists : List (Hypo × List ℝ)
  status : Status

/-- Start of the call (sampling.py:277-297). -/
def Proc.start (ntoys : ℕ) (breakLocks sortSave : Bool) (hypos : List Hypo) : Proc :=
  ⟨ntoys, breakLocks, sortSave, hypos, .check, [], .running⟩

/-- `continue` / end of the loop body. -/
def Proc.next (p : Proc) : Proc := { p with todo := p.todo.tail, pc := .check }

/-- `self.dists[hypo] = ..`. -/
def Proc.record (p : Proc) (a : Hypo) (s : List ℝ) : Proc := { p with dists := p.dists ++ [(a, s)] }

def Proc.raise (p : Proc) (e : PyErr) : Proc := { p with status := .raised e }

/-- One step of the loop body (sampling.py:297-313) for hypothesis `a`, given its results file
(`none`: absent) and lock, and the outcome `g` of the sampler in case this step runs it (`none`: it
raises).  Returns the process, the results file and the lock afterwards. -/
noncomputable def act (p : Proc) (a : Hypo) (file : Option Content) (lock : Bool)
    (g : Option (List ℝ)) : Proc × Option Content × Bool :=
  match p.pc with
  | .check => ({ p with pc := if file.isSome then .load else .checkLock }, file, lock)
  | .load =>
    match SampDist.load (SampDist.init p.ntoys none) (file.bind Content.read) with
    | .ok s => ((p.record a s).next, file, lock)
    | .error e => (p.raise e, file, lock)
  | .checkLock => (if lock && !p.breakLocks then p.next else { p with pc := .lock }, file, lock)
  | .lock => ({ p with pc := .gen }, file, true)
  | .gen =>
    match g with
    | some s => ({ p with pc := .opn (SampDist.save s p.sortSave) }, file, lock)
    | none => (p.raise .unmodelled, file, lock)
  | .opn s => ({ p with pc := .write s }, some .part, lock)
  | .write s => ({ p with pc := .unlock s }, some (.complete s), lock)
  | .unlock s =>
    if lock then ((p.record a s).next, file, false) else (p.raise .ioError, file, lock)

/-- The shared directory and the processes. -/
structure Sys where
  files : String → Option Content
  locks : String → Bool
  procs : ℕ → Option Proc

/-- Which file name a hypothesis gets (`Samples.file_name`, sampling.py:262-275): arbitrary here.
`Gen n a s`: the sampler of hypothesis `a`, asked for `n` toys, may return `s`. -/
structure Env where
  fname : Hypo → String
  Gen : ℕ → Hypo → List ℝ → Prop

/-- Process `pid` makes a step. -/
inductive ActStep (E : Env) (pid : ℕ) : Sys → Sys → Prop
  | mk (σ : Sys) (p : Proc) (a : Hypo) (rest : List Hypo) (g : Option (List ℝ))
      (hp : σ.procs pid = some p) (hr : p.status = .running) (ht : p.todo = a :: rest)
      (hg : ∀ s, g = some s → E.Gen p.ntoys a s) :
      ActStep E pid σ
        { files := Function.update σ.files (E.fname a)
            (act p a (σ.files (E.fname a)) (σ.locks (E.fname a)) g).2.1
          locks := Function.update σ.locks (E.fname a)
            (act p a (σ.files (E.fname a)) (σ.locks (E.fname a)) g).2.2
          procs := Function.update σ.procs pid
            (some (act p a (σ.files (E.fname a)) (σ.locks (E.fname a)) g).1) }

/-- One step of the whole system: a new process starts, one makes a step, or one is killed. -/
inductive Step (E : Env) : Sys → Sys → Prop
  | spawn (σ : Sys) (pid ntoys : ℕ) (brk srt : Bool) (hypos : List Hypo)
      (hp : σ.procs pid = none) :
      Step E σ { σ with procs := Function.update σ.procs pid (some (.start ntoys brk srt hypos)) }
  | act (σ σ' : Sys) (pid : ℕ) (h : ActStep E pid σ σ') : Step E σ σ'
  | crash (σ : Sys) (pid : ℕ) (p : Proc) (hp : σ.procs pid = some p) :
      Step E σ { σ with procs := Function.update σ.procs pid (some { p with status := .crashed }) }

/-- Executions. -/
abbrev Steps (E : Env) := Relation.ReflTransGen (Step E)

/-- An empty directory without processes. -/
def Sys.init : Sys := ⟨fun _ => none, fun _ => false, fun _ => none⟩

end Lock
end Verif
