import Verif.Spec.LockProto
import Verif.Lemmas.Sampling
/-! Helper lemmas on the job-lock protocol. -/
namespace Verif.Lock
open Relation

/-- After a step of the loop body the process is at the same hypothesis, or at the start of the next. -/
theorem act_todo (p : Proc) (a : Hypo) (file : Option Content) (lock : Bool) (g : Option (List ℝ)) :
    (act p a file lock g).1.todo = p.todo ∨
      ((act p a file lock g).1.todo = p.todo.tail ∧ (act p a file lock g).1.pc = .check) := by
  unfold act
  cases p.pc with
  | check => left; rfl
  | load => dsimp only; split <;> simp [Proc.next, Proc.record, Proc.raise]
  | checkLock => dsimp only; split <;> simp [Proc.next]
  | lock => left; rfl
  | gen => dsimp only; split <;> simp [Proc.raise]
  | opn s => left; rfl
  | write s => left; rfl
  | unlock s => dsimp only; split <;> simp [Proc.next, Proc.record, Proc.raise]

/-- The attributes fixed at the start of a process do not change. -/
theorem act_job (p : Proc) (a : Hypo) (file : Option Content) (lock : Bool) (g : Option (List ℝ)) :
    (act p a file lock g).1.ntoys = p.ntoys ∧ (act p a file lock g).1.breakLocks = p.breakLocks ∧
      (act p a file lock g).1.sortSave = p.sortSave := by
  unfold act
  cases p.pc with
  | check => exact ⟨rfl, rfl, rfl⟩
  | load => dsimp only; split <;> exact ⟨rfl, rfl, rfl⟩
  | checkLock => dsimp only; split <;> exact ⟨rfl, rfl, rfl⟩
  | lock => exact ⟨rfl, rfl, rfl⟩
  | gen => dsimp only; split <;> exact ⟨rfl, rfl, rfl⟩
  | opn s => exact ⟨rfl, rfl, rfl⟩
  | write s => exact ⟨rfl, rfl, rfl⟩
  | unlock s => dsimp only; split <;> exact ⟨rfl, rfl, rfl⟩

/-- General way to prove that a property of file, lock and every process at `f` is invariant. -/
theorem step_inv (E : Env) (f : String) (I : Option Content → Bool → Prop)
    (Q : Proc → Prop)
    (hcrash : ∀ p, Q p → Q { p with status := .crashed })
    (hin : ∀ p a file lock g, p.status = .running → E.fname a = f → I file lock → Q p →
      p.todo.head? = some a → (∀ s, g = some s → E.Gen p.ntoys a s) →
      I (act p a file lock g).2.1 (act p a file lock g).2.2 ∧ Q (act p a file lock g).1)
    (hout : ∀ p a file lock g, p.status = .running → E.fname a ≠ f → Q p → p.todo.head? = some a →
      (∀ s, g = some s → E.Gen p.ntoys a s) → Q (act p a file lock g).1)
    {σ σ' : Sys} (h : Step E σ σ')
    (hstart : ∀ pid n b s l, σ'.procs pid = some (Proc.start n b s l) → Q (Proc.start n b s l))
    (hI : I (σ.files f) (σ.locks f))
    (hQ : ∀ pid p, σ.procs pid = some p → Q p) :
    I (σ'.files f) (σ'.locks f) ∧ ∀ pid p, σ'.procs pid = some p → Q p := by
  cases h with
  | spawn pid ntoys brk srt hypos hp =>
    refine ⟨hI, fun q p hq => ?_⟩
    dsimp only at hq
    by_cases hqp : q = pid
    · subst hqp; rw [Function.update_self] at hq; cases hq; exact hstart q _ _ _ _ (Function.update_self _ _ _)
    · rw [Function.update_of_ne hqp] at hq; exact hQ q p hq
  | crash pid p hp =>
    refine ⟨hI, fun q p' hq => ?_⟩
    dsimp only at hq
    by_cases hqp : q = pid
    · subst hqp; rw [Function.update_self] at hq; cases hq; exact hcrash p (hQ q p hp)
    · rw [Function.update_of_ne hqp] at hq; exact hQ q p' hq
  | act _ pid h =>
    cases h with | mk p a rest g hp hr ht hg =>
    have hh : p.todo.head? = some a := by rw [ht]; rfl
    by_cases hf : E.fname a = f
    · subst hf
      have := hin p a _ _ g hr rfl hI (hQ pid p hp) hh hg
      refine ⟨?_, fun q p' hq => ?_⟩
      · dsimp only; rw [Function.update_self, Function.update_self]; exact this.1
      · dsimp only at hq
        by_cases hqp : q = pid
        · subst hqp; rw [Function.update_self] at hq; cases hq; exact this.2
        · rw [Function.update_of_ne hqp] at hq; exact hQ q p' hq
    · refine ⟨?_, fun q p' hq => ?_⟩
      · dsimp only
        rw [Function.update_of_ne (Ne.symm hf), Function.update_of_ne (Ne.symm hf)]; exact hI
      · dsimp only at hq
        by_cases hqp : q = pid
        · subst hqp; rw [Function.update_self] at hq; cases hq
          exact hout p a _ _ g hr hf (hQ q p hp) hh hg
        · rw [Function.update_of_ne hqp] at hq; exact hQ q p' hq

theorem at_head {E : Env} {f : String} {p : Proc} {a : Hypo} (hh : p.todo.head? = some a)
    (h : p.At E f) : E.fname a = f := by
  obtain ⟨-, b, rest, ht, hb⟩ := h
  rw [ht] at hh; simp at hh; subst hh; exact hb

/-- A process that was not at `f` can only arrive there at the start of the loop body. -/
theorem arrive {E : Env} {f : String} (p : Proc) (a : Hypo) (file : Option Content) (lock : Bool)
    (g : Option (List ℝ)) (hh : p.todo.head? = some a) (hf : E.fname a ≠ f)
    (h : (act p a file lock g).1.At E f) : (act p a file lock g).1.pc = .check := by
  rcases act_todo p a file lock g with h1 | h1
  · exact absurd (at_head (by rw [h1]; exact hh) h) hf
  · exact h1.2

theorem at_of_head {E : Env} {f : String} {p : Proc} {a : Hypo} (hr : p.status = .running)
    (hf : E.fname a = f) (hh : p.todo.head? = some a) : p.At E f := by
  refine ⟨hr, a, p.todo.tail, ?_, hf⟩
  cases ht : p.todo with
  | nil => rw [ht] at hh; simp at hh
  | cons x l => rw [ht] at hh; simp at hh; simp [hh]

theorem settled_step (E : Env) (f : String) (c : Content) {σ σ' : Sys} (hs : Step E σ σ')
    (hfile : σ.files f = some c)
    (hread : ∀ pid p, σ.procs pid = some p → p.At E f → p.pc.Reading) :
    σ'.files f = some c ∧ ∀ pid p, σ'.procs pid = some p → p.At E f → p.pc.Reading := by
  refine step_inv E f (fun c' _ => c' = some c) (fun p => p.At E f → p.pc.Reading)
    (fun p _ h => by cases h.1) ?_ ?_ hs (fun _ _ _ _ _ _ _ => trivial) hfile hread
  · intro p a file lock g hr hf hI hQ hh hg
    have hpc := hQ (at_of_head hr hf hh)
    subst hI
    unfold act
    cases hp : p.pc with
    | check => exact ⟨rfl, fun _ => trivial⟩
    | load =>
      dsimp only
      split
      · exact ⟨rfl, fun _ => trivial⟩
      · exact ⟨rfl, fun h => by cases h.1⟩
    | checkLock => rw [hp] at hpc; exact hpc.elim
    | lock => rw [hp] at hpc; exact hpc.elim
    | gen => rw [hp] at hpc; exact hpc.elim
    | opn s => rw [hp] at hpc; exact hpc.elim
    | write s => rw [hp] at hpc; exact hpc.elim
    | unlock s => rw [hp] at hpc; exact hpc.elim
  · intro p a file lock g hr hf hQ hh hg hat
    rw [arrive p a file lock g hh hf hat]; trivial

theorem settled_steps (E : Env) (f : String) (c : Content) {σ σ' : Sys} (h : Steps E σ σ')
    (hfile : σ.files f = some c)
    (hread : ∀ pid p, σ.procs pid = some p → p.At E f → p.pc.Reading) :
    σ'.files f = some c ∧ ∀ pid p, σ'.procs pid = some p → p.At E f → p.pc.Reading := by
  induction h with
  | refl => exact ⟨hfile, hread⟩
  | tail _ hs ih => exact settled_step E f c hs ih.1 ih.2

/-! ### locks without lock breaking -/

theorem frozen_step (E : Env) (f : String) (c : Option Content) {σ σ' : Sys} (hs : Step E σ σ')
    (hnb : NoBreak σ') (hfile : σ.files f = c) (hlock : σ.locks f = true) (hnb0 : NoBreak σ)
    (hnc : ∀ pid, ¬ Committed E f σ pid) :
    σ'.files f = c ∧ σ'.locks f = true ∧ ∀ pid, ¬ Committed E f σ' pid := by
  have := step_inv E f (fun c' l => c' = c ∧ l = true)
    (fun p => p.breakLocks = false ∧ (p.At E f → ¬ p.pc.Committed))
    (fun p h => ⟨h.1, fun h' => by cases h'.1⟩) ?_ ?_ hs
    (fun pid n b s l h => ⟨hnb pid _ h, fun _ h => h⟩) ⟨hfile, hlock⟩
    (fun pid p hp => ⟨hnb0 pid p hp, fun hat hc => hnc pid ⟨p, hp, hat, hc⟩⟩)
  · refine ⟨this.1.1, this.1.2, ?_⟩
    rintro pid ⟨p, hp, hat, hc⟩
    exact (this.2 pid p hp).2 hat hc
  · rintro p a file lock g hr hf ⟨rfl, rfl⟩ ⟨hb, hQ⟩ hh hg
    have hpc := hQ (at_of_head hr hf hh)
    refine ⟨?_, (act_job p a file true g).2.1.trans hb, ?_⟩
    all_goals
      unfold act
      cases hp : p.pc with
      | check => simp [Pc.Committed]; try (split <;> simp)
      | load => dsimp only; split <;> simp [Proc.raise, Proc.next, Pc.Committed, Proc.record, hp]
      | checkLock => simp [hb, Proc.next, Pc.Committed]
      | lock => rw [hp] at hpc; exact (hpc trivial).elim
      | gen => rw [hp] at hpc; exact (hpc trivial).elim
      | opn s => rw [hp] at hpc; exact (hpc trivial).elim
      | write s => rw [hp] at hpc; exact (hpc trivial).elim
      | unlock s => rw [hp] at hpc; exact (hpc trivial).elim
  · intro p a file lock g hr hf hQ hh hg
    refine ⟨(act_job p a file lock g).2.1.trans hQ.1, fun hat => ?_⟩
    rw [arrive p a file lock g hh hf hat]; exact fun h => h

/-- `p0` holds the lock of `f` and no other process is going to write it. -/
structure Excl (E : Env) (f : String) (p0 : ℕ) (a : Hypo) (σ : Sys) : Prop where
  lock : σ.locks f = true
  own : ∃ p rest, σ.procs p0 = some p ∧ p.status = .running ∧ p.todo = a :: rest ∧ E.fname a = f ∧
    p.pc.Holding ∧ ∀ s, p.pc = .unlock s → σ.files f = some (.complete s)
  others : ∀ pid, pid ≠ p0 → ¬ Committed E f σ pid
  nb : NoBreak σ

theorem excl_step (E : Env) (f : String) (p0 : ℕ) (a : Hypo) {σ σ' : Sys} (hs : Step E σ σ')
    (hnb : NoBreak σ') (h : Excl E f p0 a σ) :
    Excl E f p0 a σ' ∨
    (∃ p, σ'.procs p0 = some p ∧ p.status ≠ .running ∧ σ'.locks f = true ∧
      (∀ pid, ¬ Committed E f σ' pid)) ∨
    (∃ p s, σ'.procs p0 = some p ∧ p.status = .running ∧ p.pc = .check ∧
      p.dists.getLast? = some (a, s) ∧ σ'.files f = some (.complete s) ∧ σ'.locks f = false ∧
      (∀ pid, ¬ Committed E f σ' pid)) := by
  obtain ⟨hl, ⟨p, rest, hp, hr, ht, hfa, hh, hu⟩, ho, hnb0⟩ := h
  cases hs with
  | spawn pid n b srt hy hpid =>
    have hne : p0 ≠ pid := by rintro rfl; rw [hp] at hpid; cases hpid
    left
    refine ⟨hl, ⟨p, rest, by dsimp only; rw [Function.update_of_ne hne]; exact hp, hr, ht, hfa, hh, hu⟩, ?_, hnb⟩
    rintro q hq ⟨p', hp', hat, hc⟩
    dsimp only at hp'
    by_cases hqp : q = pid
    · subst hqp; rw [Function.update_self] at hp'; cases hp'; exact hc
    · rw [Function.update_of_ne hqp] at hp'; exact ho q hq ⟨p', hp', hat, hc⟩
  | crash pid p' hp' =>
    have hno : ∀ q, q ≠ p0 → ¬ Committed E f { σ with procs := Function.update σ.procs pid (some { p' with status := .crashed }) } q := by
      rintro q hq ⟨p'', hp'', hat, hc⟩
      dsimp only at hp''
      by_cases hqp : q = pid
      · subst hqp; rw [Function.update_self] at hp''; cases hp''; cases hat.1
      · rw [Function.update_of_ne hqp] at hp''; exact ho q hq ⟨p'', hp'', hat, hc⟩
    by_cases hne : p0 = pid
    · subst hne
      right; left
      refine ⟨{ p' with status := .crashed }, by simp, by simp, hl, ?_⟩
      intro q
      by_cases hq : q = p0
      · subst hq
        rintro ⟨p'', hp'', hat, hc⟩
        dsimp only at hp''
        rw [Function.update_self] at hp''; cases hp''; cases hat.1
      · exact hno q hq
    · left
      exact ⟨hl, ⟨p, rest, by dsimp only; rw [Function.update_of_ne hne]; exact hp, hr, ht, hfa, hh, hu⟩, hno, hnb⟩
  | act _ pid hact =>
    cases hact with | mk p' b rest' g hp' hr' ht' hg =>
    have hh' : p'.todo.head? = some b := by rw [ht']; rfl
    by_cases hne : pid = p0
    · subst hne
      rw [hp] at hp'; cases hp'
      rw [ht] at ht'; cases ht'
      subst hfa
      have hno' : ∀ q, q ≠ pid → ¬ Committed E (E.fname a)
          ⟨Function.update σ.files (E.fname a) (act p a (σ.files (E.fname a)) (σ.locks (E.fname a)) g).2.1,
            Function.update σ.locks (E.fname a) (act p a (σ.files (E.fname a)) (σ.locks (E.fname a)) g).2.2,
            Function.update σ.procs pid
              (some (act p a (σ.files (E.fname a)) (σ.locks (E.fname a)) g).1)⟩ q := by
        rintro q hq ⟨p'', hp'', hat, hc⟩
        dsimp only at hp''
        rw [Function.update_of_ne hq] at hp''
        exact ho q hq ⟨p'', hp'', hat, hc⟩
      cases hpc : p.pc with
      | check => rw [hpc] at hh; exact hh.elim
      | load => rw [hpc] at hh; exact hh.elim
      | checkLock => rw [hpc] at hh; exact hh.elim
      | lock => rw [hpc] at hh; exact hh.elim
      | gen =>
        cases g with
        | some s =>
          left
          have hA : act p a (σ.files (E.fname a)) (σ.locks (E.fname a)) (some s) =
              ({ p with pc := .opn (SampDist.save s p.sortSave) }, σ.files (E.fname a), σ.locks (E.fname a)) := by
            simp only [act, hpc]
          rw [hA] at hno' hnb ⊢
          exact ⟨by simp [hl], ⟨_, rest, Function.update_self _ _ _, hr, ht, rfl, trivial, by simp⟩, hno', hnb⟩
        | none =>
          right; left
          have hA : act p a (σ.files (E.fname a)) (σ.locks (E.fname a)) none =
              (p.raise .unmodelled, σ.files (E.fname a), σ.locks (E.fname a)) := by
            simp only [act, hpc]
          rw [hA] at hno' hnb ⊢
          refine ⟨_, Function.update_self _ _ _, by simp [Proc.raise], by simp [hl], ?_⟩
          intro q
          by_cases hq : q = pid
          · subst hq
            rintro ⟨p'', hp'', hat, hc⟩
            dsimp only at hp''
            rw [Function.update_self] at hp''; cases hp''; cases hat.1
          · exact hno' q hq
      | opn s =>
        left
        have hA : act p a (σ.files (E.fname a)) (σ.locks (E.fname a)) g =
            ({ p with pc := .write s }, some .part, σ.locks (E.fname a)) := by
          simp only [act, hpc]
        rw [hA] at hno' hnb ⊢
        exact ⟨by simp [hl], ⟨_, rest, Function.update_self _ _ _, hr, ht, rfl, trivial, by simp⟩, hno', hnb⟩
      | write s =>
        left
        have hA : act p a (σ.files (E.fname a)) (σ.locks (E.fname a)) g =
            ({ p with pc := .unlock s }, some (.complete s), σ.locks (E.fname a)) := by
          simp only [act, hpc]
        rw [hA] at hno' hnb ⊢
        exact ⟨by simp [hl], ⟨_, rest, Function.update_self _ _ _, hr, ht, rfl, trivial, by simp⟩, hno', hnb⟩
      | unlock s =>
        right; right
        have hA : act p a (σ.files (E.fname a)) (σ.locks (E.fname a)) g =
            ((p.record a s).next, σ.files (E.fname a), false) := by
          simp only [act, hpc, hl, if_true]
        rw [hA] at hno' hnb ⊢
        refine ⟨_, s, Function.update_self _ _ _, hr, rfl, by simp [Proc.next, Proc.record], by simp [hu s hpc], by simp, ?_⟩
        intro q
        by_cases hq : q = pid
        · subst hq
          rintro ⟨p'', hp'', hat, hc⟩
          dsimp only at hp''
          rw [Function.update_self] at hp''; cases hp''; exact hc
        · exact hno' q hq
    · left
      have hfr : σ.procs pid ≠ none := by rw [hp']; simp
      have hncp : p'.At E f → ¬ p'.pc.Committed := fun hat hc => ho pid hne ⟨p', hp', hat, hc⟩
      have hbr := hnb0 pid p' hp'
      have key : ∀ P : Proc × Option Content × Bool,
          P = act p' b (σ.files (E.fname b)) (σ.locks (E.fname b)) g →
          (Function.update σ.files (E.fname b) P.2.1) f = σ.files f ∧
          (Function.update σ.locks (E.fname b) P.2.2) f = true ∧ (P.1.At E f → ¬ P.1.pc.Committed) := by
        rintro P rfl
        by_cases hfb : E.fname b = f
        · subst hfb
          rw [Function.update_self, Function.update_self]
          have hpc := hncp (at_of_head hr' rfl hh')
          rw [hl]
          unfold act
          cases hq : p'.pc with
          | check => simp [Pc.Committed]; split <;> simp
          | load =>
            dsimp only
            split
            · exact ⟨rfl, rfl, fun _ h => h⟩
            · exact ⟨rfl, rfl, fun h => by cases h.1⟩
          | checkLock => simp [hbr, Proc.next, Pc.Committed]
          | lock => rw [hq] at hpc; exact (hpc trivial).elim
          | gen => rw [hq] at hpc; exact (hpc trivial).elim
          | opn s => rw [hq] at hpc; exact (hpc trivial).elim
          | write s => rw [hq] at hpc; exact (hpc trivial).elim
          | unlock s => rw [hq] at hpc; exact (hpc trivial).elim
        · rw [Function.update_of_ne (Ne.symm hfb), Function.update_of_ne (Ne.symm hfb)]
          refine ⟨rfl, hl, fun hat => ?_⟩
          rw [arrive p' b _ _ g hh' hfb hat]; exact fun h => h
      obtain ⟨k1, k2, k3⟩ := key _ rfl
      refine ⟨k2, ⟨p, rest, by dsimp only; rw [Function.update_of_ne (Ne.symm hne)]; exact hp, hr, ht, hfa, hh,
        fun s hs => by rw [← hu s hs]; exact k1⟩, ?_, hnb⟩
      rintro q hq ⟨p'', hp'', hat, hc⟩
      dsimp only at hp''
      by_cases hqp : q = pid
      · subst hqp; rw [Function.update_self] at hp''; cases hp''; exact k3 hat hc
      · rw [Function.update_of_ne hqp] at hp''; exact ho q hq ⟨p'', hp'', hat, hc⟩

end Verif.Lock
