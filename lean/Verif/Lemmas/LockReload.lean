import Verif.Lemmas.LockProto
/-! Helper lemmas: a job running alone holds what is in the files. -/
namespace Verif.Lock
open Relation

/-- What is in the file of the hypothesis in progress. -/
def AtPc (N : ℕ) (file : Option Content) : Pc → Prop
  | .check => True
  | .load => True
  | .checkLock => file = none
  | .lock => file = none
  | .gen => file = none
  | .opn s => file = none ∧ s.length = N
  | .write s => file = some .part ∧ s.length = N
  | .unlock s => file = some (.complete s)

structure RInv (E : Env) (N : ℕ) (σ : Sys) (p : Proc) : Prop where
  toys : p.ntoys = N
  held : ∀ a l, (a, l) ∈ p.dists → σ.files (E.fname a) = some (.complete l)
  size : ∀ f s, σ.files f = some (.complete s) → s.length = N
  cur : ∀ a, p.todo.head? = some a → AtPc N (σ.files (E.fname a)) p.pc

theorem rinv_step {E : Env} {N pid : ℕ} (hGen : ∀ a s, E.Gen N a s → s.length = N) {σ σ' : Sys} {p : Proc}
    (hp : σ.procs pid = some p) (h : RInv E N σ p) (hs : ActStep E pid σ σ') :
    ∃ p', σ'.procs pid = some p' ∧ RInv E N σ' p' := by
  cases hs with | mk p' a rest g hp' hr' ht hg =>
  rw [hp] at hp'; cases hp'
  have hcur := h.cur a (by simp [ht])
  have hN := h.toys
  refine ⟨_, Function.update_self _ _ _, ?_⟩
  -- the file as before
  have keep : ∀ (q : Proc) (lk : Bool), q.ntoys = N → q.dists = p.dists →
      (∀ b, q.todo.head? = some b → AtPc N (σ.files (E.fname b)) q.pc) →
      RInv E N ⟨Function.update σ.files (E.fname a) (σ.files (E.fname a)), Function.update σ.locks (E.fname a) lk,
        Function.update σ.procs pid (some q)⟩ q := by
    intro q lk h1 h2 h3
    rw [Function.update_eq_self]
    exact ⟨h1, by rw [h2]; exact h.held, h.size, h3⟩
  have same : ∀ pc, AtPc N (σ.files (E.fname a)) pc → ∀ b, ({ p with pc := pc } : Proc).todo.head? = some b →
      AtPc N (σ.files (E.fname b)) pc := by
    intro pc hpc b hb
    have : b = a := by simpa [ht] using hb.symm
    subst this; exact hpc
  have grow : ∀ (s : List ℝ) (lk : Bool), σ.files (E.fname a) = some (.complete s) →
      RInv E N ⟨Function.update σ.files (E.fname a) (σ.files (E.fname a)), Function.update σ.locks (E.fname a) lk,
        Function.update σ.procs pid (some (p.record a s).next)⟩ (p.record a s).next := by
    intro s lk hf
    rw [Function.update_eq_self]
    refine ⟨hN, ?_, h.size, fun b _ => trivial⟩
    intro b l hb
    rcases List.mem_append.1 hb with hb | hb
    · exact h.held b l hb
    · simp only [List.mem_singleton, Prod.mk.injEq] at hb
      rw [hb.1, hb.2]; exact hf
  cases hpc : p.pc with
  | check =>
    simp only [act, hpc]
    refine keep _ _ hN rfl (same _ ?_)
    split
    · trivial
    · next hi => simpa [AtPc] using hi
  | load =>
    simp only [act, hpc]
    split
    · next s hs =>
      refine grow s _ ?_
      cases hf : σ.files (E.fname a) with
      | none => rw [hf] at hs; simp [SampDist.load] at hs
      | some c =>
        cases c with
        | part => rw [hf] at hs; simp [SampDist.load, Content.read] at hs
        | complete t =>
          have hl := h.size _ _ hf
          rw [hf] at hs
          simp [SampDist.load, Content.read, SampDist.init, hN, hl] at hs
          rw [hs]
    · refine keep _ _ hN rfl (fun b hb => ?_)
      have := h.cur b hb
      simpa [Proc.raise, hpc] using this
  | checkLock =>
    rw [hpc] at hcur
    simp only [act, hpc]
    split
    · exact keep _ _ hN rfl (fun b _ => trivial)
    · exact keep _ _ hN rfl (same _ hcur)
  | lock =>
    rw [hpc] at hcur
    simp only [act, hpc]
    exact keep _ _ hN rfl (same _ hcur)
  | gen =>
    rw [hpc] at hcur
    simp only [act, hpc]
    cases g with
    | none => exact keep _ _ hN rfl (fun b hb => by simpa [Proc.raise, hpc] using h.cur b hb)
    | some s =>
      refine keep _ _ hN rfl (same _ ⟨hcur, ?_⟩)
      rw [← hGen a s (hN ▸ hg s rfl)]
      unfold SampDist.save; split <;> simp
  | opn s =>
    rw [hpc] at hcur
    simp only [act, hpc]
    have ne : ∀ b l, (b, l) ∈ p.dists → E.fname b ≠ E.fname a := by
      intro b l hb he
      have := h.held b l hb
      rw [he, hcur.1] at this; cases this
    refine ⟨hN, fun b l hb => ?_, fun f t hf => ?_, fun b hb => ?_⟩
    · dsimp only; rw [Function.update_of_ne (ne b l hb)]; exact h.held b l hb
    · dsimp only at hf
      by_cases hfa : f = E.fname a
      · subst hfa; rw [Function.update_self] at hf; cases hf
      · rw [Function.update_of_ne hfa] at hf; exact h.size f t hf
    · have : b = a := by simpa [ht] using hb.symm
      subst this
      dsimp only
      rw [Function.update_self]; exact ⟨rfl, hcur.2⟩
  | write s =>
    rw [hpc] at hcur
    simp only [act, hpc]
    have ne : ∀ b l, (b, l) ∈ p.dists → E.fname b ≠ E.fname a := by
      intro b l hb he
      have := h.held b l hb
      rw [he, hcur.1] at this; cases this
    refine ⟨hN, fun b l hb => ?_, fun f t hf => ?_, fun b hb => ?_⟩
    · dsimp only; rw [Function.update_of_ne (ne b l hb)]; exact h.held b l hb
    · dsimp only at hf
      by_cases hfa : f = E.fname a
      · subst hfa; rw [Function.update_self] at hf; cases hf; exact hcur.2
      · rw [Function.update_of_ne hfa] at hf; exact h.size f t hf
    · have : b = a := by simpa [ht] using hb.symm
      subst this
      dsimp only
      rw [Function.update_self]; exact rfl
  | unlock s =>
    rw [hpc] at hcur
    simp only [act, hpc]
    split
    · exact grow s _ hcur
    · exact keep _ _ hN rfl (fun b hb => by simpa [Proc.raise, hpc] using h.cur b hb)

theorem reload_held {E : Env} {N pid : ℕ} (hGen : ∀ a s, E.Gen N a s → s.length = N) {σ σ' : Sys} {brk srt : Bool}
    {hypos : List Hypo} (hp : σ.procs pid = some (.start N brk srt hypos))
    (hsize : ∀ f s, σ.files f = some (.complete s) → s.length = N) (h : Solo E pid σ σ') :
    ∃ p, σ'.procs pid = some p ∧ RInv E N σ' p := by
  induction h with
  | refl => exact ⟨_, hp, rfl, (fun a l h => by cases h), hsize, fun a _ => trivial⟩
  | tail _ hs ih =>
    obtain ⟨p, hp', hi⟩ := ih
    exact rinv_step hGen hp' hi hs

end Verif.Lock
