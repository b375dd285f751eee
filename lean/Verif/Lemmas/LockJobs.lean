import Verif.Lemmas.LockProto
/-! Helper lemmas: the samples held by jobs that all ask for the same number of toys. -/
namespace Verif.Lock
open Relation

/-- `s` are `N` toys generated for `a`, sorted. -/
def ToysOf (E : Env) (N : ℕ) (a : Hypo) (s : List ℝ) : Prop := ∃ s0, E.Gen N a s0 ∧ s = SampDist.sort s0

/-- What is true of every process. -/
structure JobOk (E : Env) (N : ℕ) (p : Proc) : Prop where
  pending : ∀ a, p.todo.head? = some a →
    ∀ s, (p.pc = .opn s ∨ p.pc = .write s ∨ p.pc = .unlock s) → ToysOf E N a s
  held : ∀ a l, (a, l) ∈ p.dists → ToysOf E N a l

theorem load_toys {E : Env} {N : ℕ} (hGen : ∀ a s, E.Gen N a s → s.length = N) {a : Hypo} {s : List ℝ}
    (h : ToysOf E N a s) : SampDist.load (SampDist.init N none) (some s) = .ok s := by
  obtain ⟨s0, h0, rfl⟩ := h
  have : (SampDist.sort s0).length = N := by rw [SampDist.sort_length]; exact hGen a s0 h0
  simp [SampDist.load, SampDist.init, this]

theorem jobOk_act {E : Env} {N : ℕ} {S : Hypo → Prop} (hGen : ∀ a s, E.Gen N a s → s.length = N)
    (hinj : ∀ a b, S a → S b → E.fname a = E.fname b → a = b) (p : Proc) (a : Hypo) (rest : List Hypo)
    (file : Option Content) (lock : Bool) (g : Option (List ℝ)) (hp : JobOk E N p) (hN : p.ntoys = N)
    (hs : p.sortSave = true) (hS : ∀ a ∈ p.todo, S a) (ht : p.todo = a :: rest)
    (hg : ∀ s, g = some s → E.Gen p.ntoys a s)
    (hfile : ∀ s, file = some (.complete s) → ∃ b, S b ∧ E.fname b = E.fname a ∧ ToysOf E N b s) :
    JobOk E N (act p a file lock g).1 ∧
      ∀ s, (act p a file lock g).2.1 = some (.complete s) → ∃ b, S b ∧ E.fname b = E.fname a ∧ ToysOf E N b s := by
  have hSa : S a := hS a (by rw [ht]; simp)
  have hh : p.todo.head? = some a := by rw [ht]; rfl
  have hgood : ∀ s, file = some (.complete s) → ToysOf E N a s := by
    intro s hf
    obtain ⟨b, hb, hn, hr⟩ := hfile s hf
    rw [← hinj b a hb hSa hn]; exact hr
  have hold := hp.pending a hh
  unfold act
  cases hpc : p.pc with
  | check =>
    refine ⟨⟨fun b hb s h => ?_, hp.held⟩, hfile⟩
    dsimp only at h
    split at h <;> simp at h
  | load =>
    dsimp only
    split
    · rename_i s hs'
      refine ⟨⟨fun b hb s h => by simp [Proc.next] at h, fun b l hl => ?_⟩, hfile⟩
      rcases List.mem_append.1 hl with hl | hl
      · exact hp.held b l hl
      · simp only [List.mem_singleton, Prod.mk.injEq] at hl
        obtain ⟨rfl, rfl⟩ := hl
        cases file with
        | none => simp [SampDist.load] at hs'
        | some c =>
          cases c with
          | part => simp [SampDist.load, Content.read] at hs'
          | complete s =>
            have h1 := load_toys hGen (hgood s rfl)
            rw [hN] at hs'
            simp only [Option.bind_some, Content.read] at hs'
            rw [h1] at hs'
            rw [← Except.ok.inj (ε := PyErr) hs']
            exact hgood s rfl
    · exact ⟨⟨fun b hb s h => by simp [Proc.raise, hpc] at h, hp.held⟩, hfile⟩
  | checkLock =>
    dsimp only
    split
    · exact ⟨⟨fun b hb s h => by simp [Proc.next] at h, hp.held⟩, hfile⟩
    · exact ⟨⟨fun b hb s h => by simp at h, hp.held⟩, hfile⟩
  | lock => exact ⟨⟨fun b hb s h => by simp at h, hp.held⟩, hfile⟩
  | gen =>
    dsimp only
    split
    · rename_i s'
      refine ⟨⟨fun b hb s h => ?_, hp.held⟩, hfile⟩
      have hba : b = a := by
        have : p.todo.head? = some b := hb
        rw [hh] at this; exact (Option.some.inj this).symm
      subst hba
      simp only [Pc.opn.injEq, reduceCtorEq, or_false] at h
      subst h
      exact ⟨s', hN ▸ hg s' rfl, by simp [SampDist.save, hs]⟩
    · exact ⟨⟨fun b hb s h => by simp [Proc.raise, hpc] at h, hp.held⟩, hfile⟩
  | opn s' =>
    refine ⟨⟨fun b hb s h => ?_, hp.held⟩, fun s h => by cases h⟩
    have hba : b = a := by
      have : p.todo.head? = some b := hb
      rw [hh] at this; exact (Option.some.inj this).symm
    subst hba
    simp only [reduceCtorEq, Pc.write.injEq, or_false, false_or] at h
    subst h
    exact hold s' (Or.inl hpc)
  | write s' =>
    refine ⟨⟨fun b hb s h => ?_, hp.held⟩, fun s h => ?_⟩
    · have hba : b = a := by
        have : p.todo.head? = some b := hb
        rw [hh] at this; exact (Option.some.inj this).symm
      subst hba
      simp only [reduceCtorEq, Pc.unlock.injEq, false_or] at h
      subst h
      exact hold s' (Or.inr (Or.inl hpc))
    · have : s' = s := by simpa using h
      subst this
      exact ⟨a, hSa, rfl, hold s' (Or.inr (Or.inl hpc))⟩
  | unlock s' =>
    dsimp only
    split
    · refine ⟨⟨fun b hb s h => by simp [Proc.next] at h, fun b l hl => ?_⟩, hfile⟩
      rcases List.mem_append.1 hl with hl | hl
      · exact hp.held b l hl
      · simp only [List.mem_singleton, Prod.mk.injEq] at hl
        obtain ⟨rfl, rfl⟩ := hl
        exact hold _ (Or.inr (Or.inr hpc))
    · refine ⟨⟨fun b hb s h => hp.pending b hb s (by simpa [Proc.raise, hpc] using h), hp.held⟩, hfile⟩

/-- Everything on disk and in the jobs are toys generated for the hypothesis. -/
theorem jobs_inv {E : Env} {N : ℕ} {S : Hypo → Prop} (hGen : ∀ a s, E.Gen N a s → s.length = N)
    (hinj : ∀ a b, S a → S b → E.fname a = E.fname b → a = b) {σ : Sys} (h : StepsOf E N S Sys.init σ) :
    AllAsk N S σ ∧ (∀ f s, σ.files f = some (.complete s) → ∃ b, S b ∧ E.fname b = f ∧ ToysOf E N b s) ∧
      ∀ pid p, σ.procs pid = some p → JobOk E N p := by
  induction h with
  | refl =>
    exact ⟨fun pid p h => (by cases h), fun f s h => (by cases h), fun pid p h => (by cases h)⟩
  | @tail τ τ' _ hs ih =>
    refine ⟨hs.2, ?_⟩
    obtain ⟨hask, hfiles, hjobs⟩ := ih
    obtain ⟨hs, hask'⟩ := hs
    cases hs with
    | spawn pid n b srt hy hp' =>
      refine ⟨hfiles, fun q p hq => ?_⟩
      dsimp only at hq
      by_cases hqp : q = pid
      · subst hqp
        rw [Function.update_self] at hq
        cases hq
        exact ⟨fun a _ s h => by simp [Proc.start] at h, fun a l h => by cases h⟩
      · rw [Function.update_of_ne hqp] at hq; exact hjobs q p hq
    | crash pid p' hp' =>
      refine ⟨hfiles, fun q p hq => ?_⟩
      dsimp only at hq
      by_cases hqp : q = pid
      · subst hqp
        rw [Function.update_self] at hq
        cases hq
        exact ⟨(hjobs q p' hp').pending, (hjobs q p' hp').held⟩
      · rw [Function.update_of_ne hqp] at hq; exact hjobs q p hq
    | act _ pid hact =>
      cases hact with | mk p a rest g hp hr ht hg =>
      obtain ⟨hN, hsv, hS⟩ := hask pid p hp
      obtain ⟨h1, h2⟩ := jobOk_act hGen hinj p a rest (τ.files (E.fname a)) (τ.locks (E.fname a)) g (hjobs pid p hp)
        hN hsv hS ht hg (fun s hf => hfiles _ s hf)
      refine ⟨fun f s hf => ?_, fun q p' hq => ?_⟩
      · dsimp only at hf
        by_cases hff : f = E.fname a
        · subst hff
          rw [Function.update_self] at hf
          exact h2 s hf
        · rw [Function.update_of_ne hff] at hf; exact hfiles f s hf
      · dsimp only at hq
        by_cases hqp : q = pid
        · subst hqp
          rw [Function.update_self] at hq
          have := Option.some.inj hq
          subst this
          exact h1
        · rw [Function.update_of_ne hqp] at hq; exact hjobs q p' hq

end Verif.Lock
