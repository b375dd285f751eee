import Verif.Lemmas.LockSolo
/-!
# C29, C30: concurrent and interrupted sampling jobs
-/
namespace Verif.Props
open Verif Verif.Lock Relation

/-! ## C29 -/

/-- C29: consider a moment where the results file of `f` is complete and every process that is now at
this hypothesis is only testing for or reading the results.  Then in every continuation, with any
number of further jobs, lock breaking or not, and any crashes, the file keeps exactly this content. -/
theorem c29_result_is_final (E : Env) (f : String) (s : List ℝ) (σ σ' : Sys) (h : Steps E σ σ')
    (hfile : σ.files f = some (.complete s))
    (hread : ∀ pid p, σ.procs pid = some p → p.At E f → p.pc.Reading) :
    σ'.files f = some (.complete s) :=
  (settled_steps E f _ h hfile hread).1

/-- C29: and every job started after that moment gets, for a hypothesis of this file, the file's samples
(cut to the number it asked for): it never generates them. -/
theorem c29_later_jobs_only_load (E : Env) (f : String) (s : List ℝ) (σ σ' : Sys) (h : Steps E σ σ')
    (hfile : σ.files f = some (.complete s))
    (hread : ∀ pid p, σ.procs pid = some p → p.At E f → p.pc.Reading)
    (pid : ℕ) (hnew : σ.procs pid = none) (p : Proc) (hp : σ'.procs pid = some p)
    (a : Hypo) (l : List ℝ) (hl : (a, l) ∈ p.dists) (ha : E.fname a = f) :
    SampDist.load (SampDist.init p.ntoys none) (some s) = .ok l := by
  suffices σ'.files f = some (.complete s) ∧
      (∀ pid p, σ'.procs pid = some p → p.At E f → p.pc.Reading) ∧
      ∀ p, σ'.procs pid = some p → ∀ a l, (a, l) ∈ p.dists → E.fname a = f →
        SampDist.load (SampDist.init p.ntoys none) (some s) = .ok l from
    this.2.2 p hp a l hl ha
  clear hl ha hp p a l
  induction h with
  | refl => exact ⟨hfile, hread, by intro p hp; rw [hnew] at hp; cases hp⟩
  | @tail τ τ' hs0 hs ih =>
    have hst := settled_step E f _ hs ih.1 ih.2.1
    refine ⟨hst.1, hst.2, ?_⟩
    obtain ⟨hfτ, hrτ, hdτ⟩ := ih
    cases hs with
    | spawn pid' n b srt hy hp' =>
      intro p hp a l hl
      dsimp only at hp
      by_cases hq : pid = pid'
      · subst hq; rw [Function.update_self] at hp; cases hp; cases hl
      · rw [Function.update_of_ne hq] at hp; exact hdτ p hp a l hl
    | crash pid' p' hp' =>
      intro p hp a l hl
      dsimp only at hp
      by_cases hq : pid = pid'
      · subst hq; rw [Function.update_self] at hp; cases hp; exact hdτ p' hp' a l hl
      · rw [Function.update_of_ne hq] at hp; exact hdτ p hp a l hl
    | act _ pid' hact =>
      cases hact with | mk p' b rest g hp' hr ht hg =>
      intro p hp a l hl hfa
      dsimp only at hp
      by_cases hq : pid = pid'
      · subst hq
        rw [Function.update_self] at hp
        have hp := Option.some.inj hp
        have hold := hdτ p' hp' a l
        subst hp
        rw [(act_job p' b _ _ g).1]
        have hread' := hrτ pid p' hp'
        revert hl
        unfold act
        cases hpc : p'.pc with
        | check => exact fun hl => hold hl hfa
        | load =>
          dsimp only
          split
          · rename_i s' hs'
            intro hl
            rcases List.mem_append.1 hl with hl | hl
            · exact hold hl hfa
            · simp only [List.mem_singleton, Prod.mk.injEq] at hl
              obtain ⟨rfl, rfl⟩ := hl
              rw [hfa, hfτ] at hs'
              exact hs'
          · exact fun hl => hold hl hfa
        | checkLock => dsimp only; split <;> exact fun hl => hold hl hfa
        | lock => exact fun hl => hold hl hfa
        | gen => dsimp only; split <;> exact fun hl => hold hl hfa
        | opn s => exact fun hl => hold hl hfa
        | write s => exact fun hl => hold hl hfa
        | unlock s =>
          dsimp only
          split
          · intro hl
            rcases List.mem_append.1 hl with hl | hl
            · exact hold hl hfa
            · simp only [List.mem_singleton, Prod.mk.injEq] at hl
              obtain ⟨rfl, rfl⟩ := hl
              have := hread' ⟨hr, a, rest, ht, hfa⟩
              rw [hpc] at this
              exact this.elim
          · exact fun hl => hold hl hfa
      · rw [Function.update_of_ne hq] at hp; exact hdτ p hp a l hl hfa

/-- C29: every complete results file ever found on disk was produced by the sampler of a hypothesis with
this file name (sorted or not), whatever the interleaving and the crashes. -/
theorem c29_results_are_generated (E : Env) (σ : Sys) (h : Steps E Sys.init σ) (f : String) (s : List ℝ)
    (hf : σ.files f = some (.complete s)) :
    ∃ a n s0 srt, E.fname a = f ∧ E.Gen n a s0 ∧ s = SampDist.save s0 srt := by
  let R : Hypo → List ℝ → Prop := fun a s => ∃ n s0 srt, E.Gen n a s0 ∧ s = SampDist.save s0 srt
  let Q : Proc → Prop := fun p => ∀ a, p.todo.head? = some a →
    ∀ s, (p.pc = .opn s ∨ p.pc = .write s ∨ p.pc = .unlock s) → R a s
  suffices (∀ s, σ.files f = some (.complete s) → ∃ a, E.fname a = f ∧ R a s) ∧
      ∀ pid p, σ.procs pid = some p → Q p by
    obtain ⟨a, h1, n, s0, srt, h2, h3⟩ := this.1 s hf
    exact ⟨a, n, s0, srt, h1, h2, h3⟩
  clear hf s
  have hQ : ∀ p a file lock g, Q p → p.todo.head? = some a →
      (∀ s, g = some s → E.Gen p.ntoys a s) → Q (act p a file lock g).1 := by
    intro p a file lock g hq hh hg b hb s hs
    rcases act_todo p a file lock g with h1 | h1
    · rw [h1] at hb
      have hba : b = a := by rw [hh] at hb; exact (Option.some.inj hb).symm
      subst hba
      revert hs
      have hold := hq b hh s
      unfold act
      cases hp : p.pc with
      | check => dsimp only; split <;> simp
      | load => dsimp only; split <;> simp [Proc.next, Proc.record, Proc.raise, hp]
      | checkLock => dsimp only; split <;> simp [Proc.next]
      | lock => simp
      | gen =>
        dsimp only
        split
        · rename_i s' 
          simp only [Pc.opn.injEq, reduceCtorEq, or_false]
          rintro rfl
          exact ⟨_, _, _, hg s' rfl, rfl⟩
        · simp [Proc.raise, hp]
      | opn s' =>
        simp only [reduceCtorEq, Pc.write.injEq, or_false, false_or]
        rintro rfl; exact hold (Or.inl hp)
      | write s' =>
        simp only [reduceCtorEq, Pc.unlock.injEq, false_or]
        rintro rfl; exact hold (Or.inr (Or.inl hp))
      | unlock s' =>
        dsimp only
        split
        · simp [Proc.next]
        · intro h; exact hold (by simpa [Proc.raise, hp] using h)
    · rw [h1.2] at hs; simp at hs
  induction h with
  | refl => exact ⟨fun s h => (by cases h), fun pid p h => (by cases h)⟩
  | tail _ hs ih =>
    have := step_inv E f (fun c _ => ∀ s, c = some (.complete s) → ∃ a, E.fname a = f ∧ R a s) Q
      (fun p h => h) ?_ (fun p a file lock g _ _ hq hh hg => hQ p a file lock g hq hh hg) hs
      (fun pid n b srt l _ a _ s h => by simp [Proc.start] at h) ih.1 ih.2
    · exact this
    · intro p a file lock g hr hf hI hq hh hg
      refine ⟨?_, hQ p a file lock g hq hh hg⟩
      intro s
      have hold := hq a hh
      unfold act
      cases hp : p.pc with
      | check => exact hI s
      | load => dsimp only; split <;> exact hI s
      | checkLock => exact hI s
      | lock => exact hI s
      | gen => dsimp only; split <;> exact hI s
      | opn s' => intro h; cases h
      | write s' =>
        intro h
        have : s' = s := by simpa using h
        subst this
        exact ⟨a, hf, hold s' (Or.inr (Or.inl hp))⟩
      | unlock s' => dsimp only; split <;> exact hI s

/-- C29, without lock breaking: once a job holds the lock of `f` and no other process has passed the test
of that lock, no other process passes it for as long as the job holds the lock. -/
theorem c29_lock_excludes (E : Env) (f : String) (p0 : ℕ) (a : Hypo) (σ σ' : Sys)
    (h : ReflTransGen (fun τ τ' => Step E τ τ' ∧ NoBreak τ' ∧
      ∃ p, τ'.procs p0 = some p ∧ p.status = .running ∧ p.pc.Holding) σ σ')
    (hlock : σ.locks f = true) (p : Proc) (rest : List Hypo) (hp : σ.procs p0 = some p)
    (hr : p.status = .running) (ht : p.todo = a :: rest) (hf : E.fname a = f) (hpc : p.pc = .gen)
    (hothers : ∀ pid, pid ≠ p0 → ¬ Committed E f σ pid) (hnb : NoBreak σ) :
    σ'.locks f = true ∧ ∀ pid, pid ≠ p0 → ¬ Committed E f σ' pid := by
  suffices Excl E f p0 a σ' from ⟨this.lock, this.others⟩
  induction h with
  | refl =>
    exact ⟨hlock, ⟨p, rest, hp, hr, ht, hf, by rw [hpc]; trivial, by rw [hpc]; simp⟩, hothers, hnb⟩
  | tail _ hs ih =>
    obtain ⟨hs, hnb', p', hp', hr', hh'⟩ := hs
    rcases excl_step E f p0 a hs hnb' ih with h | ⟨q, hq, hqr, -, -⟩ | ⟨q, s, hq, -, hqc, -⟩
    · exact h
    · rw [hp'] at hq; cases hq; exact absurd hr' hqr
    · rw [hp'] at hq; cases hq; rw [hqc] at hh'; exact hh'.elim

/-- C29, same situation: when the job gives the lock back, the results file holds exactly the samples the
job generated and keeps. -/
theorem c29_lock_holder_result (E : Env) (f : String) (p0 : ℕ) (a : Hypo) (σ σ' σ'' : Sys)
    (h : ReflTransGen (fun τ τ' => Step E τ τ' ∧ NoBreak τ' ∧
      ∃ p, τ'.procs p0 = some p ∧ p.status = .running ∧ p.pc.Holding) σ σ')
    (hlock : σ.locks f = true) (p : Proc) (rest : List Hypo) (hp : σ.procs p0 = some p)
    (hr : p.status = .running) (ht : p.todo = a :: rest) (hf : E.fname a = f) (hpc : p.pc = .gen)
    (hothers : ∀ pid, pid ≠ p0 → ¬ Committed E f σ pid) (hnb : NoBreak σ)
    (hlast : Step E σ' σ'') (hnb' : NoBreak σ'') (p' : Proc) (hp' : σ''.procs p0 = some p')
    (hr' : p'.status = .running) (hrel : ¬ p'.pc.Holding) :
    ∃ s, p'.dists.getLast? = some (a, s) ∧ σ''.files f = some (.complete s) ∧ σ''.locks f = false ∧
      ∀ pid, ¬ Committed E f σ'' pid := by
  have hE : Excl E f p0 a σ' := by
    clear hlast hnb' hp' hr' hrel
    induction h with
    | refl =>
      exact ⟨hlock, ⟨p, rest, hp, hr, ht, hf, by rw [hpc]; trivial, by rw [hpc]; simp⟩, hothers, hnb⟩
    | tail _ hs ih =>
      obtain ⟨hs, hnb', p', hp', hr', hh'⟩ := hs
      rcases excl_step E f p0 a hs hnb' ih with h | ⟨q, hq, hqr, -, -⟩ | ⟨q, s, hq, -, hqc, -⟩
      · exact h
      · rw [hp'] at hq; cases hq; exact absurd hr' hqr
      · rw [hp'] at hq; cases hq; rw [hqc] at hh'; exact hh'.elim
  rcases excl_step E f p0 a hlast hnb' hE with h | ⟨q, hq, hqr, -, -⟩ | ⟨q, s, hq, -, hqc, hd, hfl, hlk, hc⟩
  · obtain ⟨q, rest, hq, -, -, -, hh, -⟩ := h.own
    rw [hp'] at hq; cases hq; exact absurd hh hrel
  · rw [hp'] at hq; cases hq; exact absurd hr' hqr
  · rw [hp'] at hq; cases hq; exact ⟨s, hd, hfl, hlk, hc⟩

/-! ### traces showing that the lock does not give mutual exclusion -/

/-- One file for everything, and a sampler that may return anything. -/
def exEnv : Env := ⟨fun _ => "f", fun _ _ _ => True⟩

/-- The step process `pid` makes when the sampler, if run, returns `s`. -/
noncomputable def exAct (pid : ℕ) (s : List ℝ) (σ : Sys) : Sys :=
  match σ.procs pid with
  | none => σ
  | some p => match p.status, p.todo with
    | .running, a :: _ =>
      { files := Function.update σ.files "f" (act p a (σ.files "f") (σ.locks "f") (some s)).2.1
        locks := Function.update σ.locks "f" (act p a (σ.files "f") (σ.locks "f") (some s)).2.2
        procs := Function.update σ.procs pid (some (act p a (σ.files "f") (σ.locks "f") (some s)).1) }
    | _, _ => σ

theorem exAct_steps (pid : ℕ) (s : List ℝ) (σ : Sys) : Steps exEnv σ (exAct pid s σ) := by
  unfold exAct
  split
  · exact .refl
  · rename_i p hp
    split
    · rename_i a rest hr ht
      exact .single (.act σ _ pid (.mk σ p a _ (some s) hp hr ht (fun _ _ => trivial)))
    · exact .refl

/-- Two jobs for one hypothesis start, without lock breaking. -/
def exTwo : Sys :=
  ⟨fun _ => none, fun _ => false, fun pid =>
    if pid = 0 ∨ pid = 1 then some (.start 1 false false [[("mu", 1)]]) else none⟩

theorem exTwo_reach : Steps exEnv Sys.init exTwo := by
  have h1 := Step.spawn (E := exEnv) Sys.init 0 1 false false [[("mu", 1)]] rfl
  have h2 := Step.spawn (E := exEnv) { Sys.init with procs := (Function.update Sys.init.procs 0
      (some (.start 1 false false [[("mu", 1)]]))) } 1 1 false false [[("mu", 1)]] (by simp [Sys.init])
  refine .tail (.single h1) ?_
  convert h2 using 1
  unfold exTwo
  congr 1
  funext pid
  simp only [Function.update_apply, Sys.init]
  by_cases h0 : pid = 0 <;> by_cases h1 : pid = 1 <;> simp [h0, h1]

/-- Finding: both processes test for the lock before either creates it, and both generate the same
hypothesis at the same time. -/
theorem c29_no_mutual_exclusion :
    ∃ (E : Env) (σ : Sys), Steps E Sys.init σ ∧ NoBreak σ ∧
      Committed E "f" σ 0 ∧ Committed E "f" σ 1 := by
  refine ⟨exEnv, exAct 1 [] (exAct 0 [] (exAct 1 [] (exAct 0 [] (exAct 1 [] (exAct 0 [] exTwo))))),
    exTwo_reach.trans (((((exAct_steps 0 [] _).trans (exAct_steps 1 [] _)).trans
      (exAct_steps 0 [] _)).trans (exAct_steps 1 [] _)).trans ((exAct_steps 0 [] _).trans (exAct_steps 1 [] _))), ?_, ?_, ?_⟩
  · intro pid p hp
    by_cases h1 : pid = 1
    · subst h1
      simp [exAct, exTwo, Proc.start, act, Function.update_apply] at hp
      rw [← hp]
    · by_cases h0 : pid = 0
      · subst h0
        simp [exAct, exTwo, Proc.start, act, Function.update_apply] at hp
        rw [← hp]
      · simp [exAct, exTwo, Proc.start, act, Function.update_apply, h0, h1] at hp
  · refine ⟨⟨1, false, false, [[("mu", 1)]], .gen, [], .running⟩, ?_, ⟨rfl, _, _, rfl, rfl⟩, trivial⟩
    simp [exAct, exTwo, Proc.start, act, Function.update_apply]
  · refine ⟨⟨1, false, false, [[("mu", 1)]], .gen, [], .running⟩, ?_, ⟨rfl, _, _, rfl, rfl⟩, trivial⟩
    simp [exAct, exTwo, Proc.start, act, Function.update_apply]

/-- Finding: a job that found no results before the other job finished, and tests for the lock after the
other has removed it, regenerates the hypothesis and overwrites the finished results. -/
theorem c29_finished_results_overwritten :
    ∃ (E : Env) (σ σ' : Sys) (p : Proc), Steps E Sys.init σ ∧ Steps E σ σ' ∧ NoBreak σ' ∧
      σ.procs 0 = some p ∧ p.todo = [] ∧ p.dists = [([("mu", 1)], [1])] ∧
      σ.files "f" = some (.complete [1]) ∧ σ.locks "f" = false ∧
      σ'.files "f" = some (.complete [2]) := by
  let σ1 := exAct 0 [1] (exAct 0 [1] (exAct 0 [1] (exAct 0 [1] (exAct 0 [1] (exAct 0 [1]
    (exAct 1 [2] (exAct 0 [1] exTwo)))))))
  have e1 : Steps exEnv Sys.init σ1 := exTwo_reach.trans
    ((exAct_steps 0 _ _).trans ((exAct_steps 1 _ _).trans ((exAct_steps 0 _ _).trans
    ((exAct_steps 0 _ _).trans ((exAct_steps 0 _ _).trans ((exAct_steps 0 _ _).trans
    ((exAct_steps 0 _ _).trans (exAct_steps 0 _ _))))))))
  let σ2 := exAct 1 [2] (exAct 1 [2] (exAct 1 [2] (exAct 1 [2] (exAct 1 [2] σ1))))
  have e2 : Steps exEnv σ1 σ2 :=
    ((exAct_steps 1 _ _).trans ((exAct_steps 1 _ _).trans ((exAct_steps 1 _ _).trans
    ((exAct_steps 1 _ _).trans (exAct_steps 1 _ _)))))
  refine ⟨exEnv, σ1, σ2, ⟨1, false, false, [], .check, [([("mu", 1)], [1])], .running⟩, e1, e2, ?_, ?_,
    rfl, rfl, ?_, ?_, ?_⟩
  · intro pid p hp
    by_cases h1 : pid = 1
    · subst h1
      simp [σ1, σ2, exAct, exTwo, Proc.start, act, Function.update_apply, Proc.next, Proc.record] at hp
      rw [← hp]
    · by_cases h0 : pid = 0
      · subst h0
        simp [σ1, σ2, exAct, exTwo, Proc.start, act, Function.update_apply, Proc.next, Proc.record] at hp
        rw [← hp]
      · simp [σ1, σ2, exAct, exTwo, Proc.start, act, Function.update_apply, Proc.next, Proc.record, h0, h1] at hp
  all_goals
    simp [σ1, σ2, exAct, exTwo, Proc.start, act, Function.update_apply, Proc.next, Proc.record,
      SampDist.save]

/-! ## C30 -/

/-- C30: when a job dies holding the lock of `f` (no other process having passed the test of that lock),
then, as long as no job breaks locks, the lock stays, nobody passes it, and the results file stays as
it is: later jobs skip the hypothesis. -/
theorem c30_stale_lock_respected (E : Env) (f : String) (σ σ' : Sys) (h : StepsNB E σ σ')
    (hlock : σ.locks f = true) (hnb : NoBreak σ) (hnone : ∀ pid, ¬ Committed E f σ pid) :
    σ'.locks f = true ∧ σ'.files f = σ.files f ∧ ∀ pid, ¬ Committed E f σ' pid := by
  suffices (σ'.files f = σ.files f ∧ σ'.locks f = true ∧ ∀ pid, ¬ Committed E f σ' pid) ∧ NoBreak σ' from
    ⟨this.1.2.1, this.1.1, this.1.2.2⟩
  induction h with
  | refl => exact ⟨⟨rfl, hlock, hnone⟩, hnb⟩
  | tail _ hs ih =>
    exact ⟨frozen_step E f _ hs.1 hs.2 ih.1.1 ih.1.2.1 ih.2 ih.1.2.2, hs.2⟩

/-- C30: a job running alone, with lock breaking, in a directory without truncated results files and
with enough samples in the existing ones, whatever locks earlier jobs left.  Whenever it has
returned, it holds a distribution for each of its hypotheses in order, all results files are
complete, and no lock remains except beside results that were there before.  The only way not to
return is an exception in the sampler. -/
theorem c30_recovery (E : Env) (hGen : ∀ m a s, E.Gen m a s → s.length = m) (pid n : ℕ) (srt : Bool)
    (hypos : List Hypo) (σ σ' : Sys) (hp : σ.procs pid = some (.start n true srt hypos))
    (hfiles : ∀ a ∈ hypos, σ.files (E.fname a) = none ∨
      ∃ s, σ.files (E.fname a) = some (.complete s) ∧ n ≤ s.length)
    (h : Solo E pid σ σ') :
    ∃ p, σ'.procs pid = some p ∧ (p.status = .running ∨ p.status = .raised .unmodelled) ∧
      (p.status = .running → p.todo = [] → p.dists.map Prod.fst = hypos ∧
        ∀ a ∈ hypos, (∃ s, σ'.files (E.fname a) = some (.complete s) ∧ n ≤ s.length) ∧
          (σ'.locks (E.fname a) = false ∨ (σ.files (E.fname a)).isSome)) := by
  have hok : ∀ a ∈ hypos, FileOK n (σ.files (E.fname a)) (σ.locks (E.fname a)) (σ.files (E.fname a)) := by
    intro a ha
    rcases hfiles a ha with h | ⟨s, hs, hl⟩
    · exact Or.inl h
    · exact Or.inr ⟨s, hs, hl, Or.inr (by rw [hs]; rfl)⟩
  suffices ∃ p, σ'.procs pid = some p ∧ p.ntoys = n ∧ p.breakLocks = true ∧
      ((p.status = .raised .unmodelled) ∨
        (p.status = .running ∧ ∃ dn, SInv E n hypos σ.files σ' p dn)) by
    obtain ⟨p, hp', -, -, h⟩ := this
    refine ⟨p, hp', h.symm.imp_left (·.1), ?_⟩
    intro hr ht
    rcases h with h | ⟨-, dn, hI⟩
    · rw [hr] at h; cases h
    have hdn : hypos = dn := by have := hI.split; rw [ht, List.append_nil] at this; exact this
    refine ⟨by rw [hI.dists, ← hdn], fun a ha => ?_⟩
    have h1 := hI.dn a (hdn ▸ ha)
    rcases hI.other a ha (by simp [ht]) with h2 | ⟨s, h2, h3, h4⟩
    · rw [h2] at h1; cases h1
    · exact ⟨⟨s, h2, h3⟩, h4⟩
  induction h with
  | refl =>
    refine ⟨_, hp, rfl, rfl, Or.inr ⟨rfl, [], rfl, rfl, by simp, fun a ha _ => hok a ha, ?_⟩⟩
    intro b hb
    have : b ∈ hypos := by
      change hypos.head? = some b at hb
      cases hypos with
      | nil => simp at hb
      | cons x l => simp at hb; subst hb; simp
    exact hok b this
  | tail _ hs ih =>
    obtain ⟨p, hp', hn, hb, hc⟩ := ih
    rcases hc with hr | ⟨hr, dn, hI⟩
    · exfalso
      cases hs with | mk q a rest g hq hqr hqt hg =>
      rw [hp'] at hq; cases hq; rw [hr] at hqr; cases hqr
    · exact sinv_step hGen hp' hr hn hb hI hs

/-- C30: such a job always gets to the end: as long as it has not returned it can make a step if the
sampler can produce samples, and it makes at most `9 * (number of hypotheses) + 8` steps, whatever the
state of the directory. -/
theorem c30_terminates (E : Env) (pid : ℕ) (hex : ∀ m a, ∃ s, E.Gen m a s) :
    (∀ σ p, σ.procs pid = some p → p.status = .running → p.todo ≠ [] → ∃ σ', ActStep E pid σ σ') ∧
    (∀ n b srt hypos k (tr : ℕ → Sys), (tr 0).procs pid = some (.start n b srt hypos) →
      (∀ i < k, ActStep E pid (tr i) (tr (i + 1))) → k ≤ 9 * hypos.length + 8) := by
  constructor
  · intro σ p hp hr ht
    cases htodo : p.todo with
    | nil => exact absurd htodo ht
    | cons a rest =>
      obtain ⟨s, hs⟩ := hex p.ntoys a
      exact ⟨_, .mk σ p a rest (some s) hp hr htodo (by intro s' h; cases h; exact hs)⟩
  · intro n b srt hypos k tr h0 hstep
    have : ∀ i ≤ k, ∃ p, (tr i).procs pid = some p ∧ p.measure + i ≤ 9 * hypos.length + 8 := by
      intro i
      induction i with
      | zero => intro _; exact ⟨_, h0, le_refl _⟩
      | succ i ih =>
        intro hi
        obtain ⟨p, hp, hm⟩ := ih (by omega)
        have hs := hstep i (by omega)
        generalize htr : tr (i + 1) = τ at hs
        cases hs with | mk q a rest g hq hqr hqt hg =>
        rw [hp] at hq; cases hq
        have := act_measure p a rest hqt hqr (_root_.id ((tr i).files (E.fname a))) ((tr i).locks (E.fname a)) g
        refine ⟨_, by simp; rfl, ?_⟩
        simp only [_root_.id] at this
        omega
    obtain ⟨p, -, h⟩ := this k (le_refl _)
    omega

/-- Finding: a job killed while its results file is being written leaves a truncated file, which the
protocol takes for finished results.  From then on, in every continuation, with or without lock
breaking, the file stays truncated and no job started later ever gets samples for that hypothesis. -/
theorem c30_truncated_file_is_fatal :
    (∃ (E : Env) (σ : Sys), Steps E Sys.init σ ∧ σ.files "f" = some .part ∧
      ∀ pid p, σ.procs pid = some p → p.status = .crashed) ∧
    (∀ (E : Env) (f : String) (σ σ' : Sys), Steps E σ σ' → σ.files f = some .part →
      (∀ pid p, σ.procs pid = some p → p.status = .crashed) →
      σ'.files f = some .part ∧
      ∀ pid p, σ.procs pid = none → σ'.procs pid = some p → ∀ a l, (a, l) ∈ p.dists → E.fname a ≠ f) := by
  constructor
  · let σ1 := exAct 0 [1] (exAct 0 [1] (exAct 0 [1] (exAct 0 [1] (exAct 0 [1]
      { Sys.init with procs := (Function.update Sys.init.procs 0 (some (.start 1 false false [[("mu", 1)]]))) }))))
    have e1 : Steps exEnv Sys.init σ1 := (ReflTransGen.single
      (Step.spawn (E := exEnv) Sys.init 0 1 false false [[("mu", 1)]] rfl)).trans
      ((exAct_steps 0 _ _).trans ((exAct_steps 0 _ _).trans ((exAct_steps 0 _ _).trans
      ((exAct_steps 0 _ _).trans (exAct_steps 0 _ _)))))
    have hp : σ1.procs 0 = some ⟨1, false, false, [[("mu", 1)]], .write [1], [], .running⟩ := by
      simp [σ1, exAct, Proc.start, act, Function.update_apply, Sys.init, SampDist.save]
    refine ⟨exEnv, _, e1.tail (.crash σ1 0 _ hp), ?_, ?_⟩
    · simp [σ1, exAct, Proc.start, act, Function.update_apply, Sys.init]
    · intro pid p hp'
      by_cases h0 : pid = 0
      · subst h0; dsimp only at hp'; rw [Function.update_self] at hp'; cases hp'; rfl
      · simp [σ1, exAct, Proc.start, act, Function.update_apply, Sys.init, h0] at hp'
  · intro E f σ σ' h hfile hcr
    have hread : ∀ pid p, σ.procs pid = some p → p.At E f → p.pc.Reading := by
      intro pid p hp hat; have := hat.1; rw [hcr pid p hp] at this; cases this
    suffices (σ'.files f = some .part ∧ ∀ pid p, σ'.procs pid = some p → p.At E f → p.pc.Reading) ∧
        ∀ pid p, σ.procs pid = none → σ'.procs pid = some p → ∀ a l, (a, l) ∈ p.dists → E.fname a ≠ f from
      ⟨this.1.1, this.2⟩
    induction h with
    | refl => exact ⟨⟨hfile, hread⟩, by intro pid p h1 h2; rw [h1] at h2; cases h2⟩
    | tail _ hs ih =>
      refine ⟨settled_step E f _ hs ih.1.1 ih.1.2, ?_⟩
      obtain ⟨⟨hfτ, hrτ⟩, hdτ⟩ := ih
      intro pid p hnew hp a l hl hfa
      cases hs with
      | spawn pid' n b srt hy hp' =>
        dsimp only at hp
        by_cases hq : pid = pid'
        · subst hq; rw [Function.update_self] at hp; cases hp; cases hl
        · rw [Function.update_of_ne hq] at hp; exact hdτ pid p hnew hp a l hl hfa
      | crash pid' p' hp' =>
        dsimp only at hp
        by_cases hq : pid = pid'
        · subst hq; rw [Function.update_self] at hp; cases hp; exact hdτ pid p' hnew hp' a l hl hfa
        · rw [Function.update_of_ne hq] at hp; exact hdτ pid p hnew hp a l hl hfa
      | act _ pid' hact =>
        cases hact with | mk p' b rest g hp' hr ht hg =>
        dsimp only at hp
        by_cases hq : pid = pid'
        · subst hq
          rw [Function.update_self] at hp
          have hp := Option.some.inj hp
          have hold := fun hl => hdτ pid p' hnew hp' a l hl hfa
          subst hp
          have hread' := hrτ pid p' hp'
          revert hl
          unfold act
          cases hpc : p'.pc with
          | check => exact hold
          | load =>
            dsimp only
            split
            · rename_i s' hs'
              intro hl
              rcases List.mem_append.1 hl with hl | hl
              · exact hold hl
              · simp only [List.mem_singleton, Prod.mk.injEq] at hl
                obtain ⟨rfl, rfl⟩ := hl
                rw [hfa, hfτ] at hs'
                simp [SampDist.load, Content.read] at hs'
            · exact hold
          | checkLock => dsimp only; split <;> exact hold
          | lock => exact hold
          | gen => dsimp only; split <;> exact hold
          | opn s => exact hold
          | write s => exact hold
          | unlock s =>
            dsimp only
            split
            · intro hl
              rcases List.mem_append.1 hl with hl | hl
              · exact hold hl
              · simp only [List.mem_singleton, Prod.mk.injEq] at hl
                obtain ⟨rfl, rfl⟩ := hl
                have := hread' ⟨hr, a, rest, ht, hfa⟩
                rw [hpc] at this
                exact this.elim
            · exact hold
        · rw [Function.update_of_ne hq] at hp; exact hdτ pid p hnew hp a l hl hfa

end Verif.Props
