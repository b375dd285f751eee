import Verif.Model.LockProto
/-!
# Vocabulary for the statements about concurrent sampling jobs
-/
namespace Verif.Lock

/-- The process is running and is now at the hypothesis whose results go to file `f`. -/
def Proc.At (E : Env) (f : String) (p : Proc) : Prop :=
  p.status = .running ∧ ∃ a rest, p.todo = a :: rest ∧ E.fname a = f

/-- The process is testing for, or reading, an existing results file. -/
def Pc.Reading : Pc → Prop
  | .check | .load => True
  | _ => False

/-- The process has passed the test of the lock: it is going to write the results file. -/
def Pc.Committed : Pc → Prop
  | .lock | .gen | .opn _ | .write _ | .unlock _ => True
  | _ => False

/-- The process has created the lock and not removed it yet. -/
def Pc.Holding : Pc → Prop
  | .gen | .opn _ | .write _ | .unlock _ => True
  | _ => False

/-- Process `pid` is going to write file `f`. -/
def Committed (E : Env) (f : String) (σ : Sys) (pid : ℕ) : Prop :=
  ∃ p, σ.procs pid = some p ∧ p.At E f ∧ p.pc.Committed

/-- No process runs with lock breaking. -/
def NoBreak (σ : Sys) : Prop := ∀ pid p, σ.procs pid = some p → p.breakLocks = false

/-- Executions in which no process breaks locks. -/
abbrev StepsNB (E : Env) := Relation.ReflTransGen (fun σ σ' => Step E σ σ' ∧ NoBreak σ')

/-- Executions in which only process `pid` makes steps. -/
abbrev Solo (E : Env) (pid : ℕ) := Relation.ReflTransGen (ActStep E pid)

/-- All processes ask for `N` toys and sort before saving, and their hypotheses are in `S`. -/
def AllAsk (N : ℕ) (S : Hypo → Prop) (σ : Sys) : Prop :=
  ∀ pid p, σ.procs pid = some p → p.ntoys = N ∧ p.sortSave = true ∧ ∀ a ∈ p.todo, S a

/-- Executions of such processes only. -/
abbrev StepsOf (E : Env) (N : ℕ) (S : Hypo → Prop) :=
  Relation.ReflTransGen (fun σ σ' => Step E σ σ' ∧ AllAsk N S σ')

end Verif.Lock
