import Verif.Spec.LockProto
/-!
# A job that works alone
-/
namespace Verif.Lock

/-- One system with process `pid` in state `p`, and file and lock of `f`. -/
def withProc (σ : Sys) (pid : ℕ) (p : Proc) (f : String) (c : Option Content) (l : Bool) : Sys :=
  ⟨Function.update σ.files f c, Function.update σ.locks f l, Function.update σ.procs pid (some p)⟩

/-- All other processes are fine, and `p` is. -/
theorem allAsk_with {N : ℕ} {S : Hypo → Prop} {σ : Sys} {pid : ℕ} {p : Proc} {f : String} {c : Option Content} {l : Bool}
    (h : AllAsk N S σ) (h1 : p.ntoys = N) (h2 : p.sortSave = true) (h3 : ∀ a ∈ p.todo, S a) :
    AllAsk N S (withProc σ pid p f c l) := by
  intro i q hq
  by_cases hi : i = pid
  · subst hi
    simp only [withProc, Function.update_self, Option.some.injEq] at hq
    subst hq
    exact ⟨h1, h2, h3⟩
  · simp only [withProc, Function.update_of_ne hi] at hq
    exact h i q hq

theorem with_with (σ : Sys) (pid : ℕ) (p q : Proc) (f : String) (c c' : Option Content) (l l' : Bool) :
    withProc (withProc σ pid p f c l) pid q f c' l' = withProc σ pid q f c' l' := by
  simp [withProc]

theorem step_with {E : Env} {N : ℕ} {S : Hypo → Prop} {σ : Sys} {pid : ℕ} {p q : Proc} {a : Hypo} {rest : List Hypo}
    {c c' : Option Content} {l l' : Bool} (g : Option (List ℝ))
    (hA : AllAsk N S σ) (hr : p.status = .running) (ht : p.todo = a :: rest) (hg : ∀ s, g = some s → E.Gen p.ntoys a s)
    (ha : act p a c l g = (q, c', l')) (h1 : q.ntoys = N) (h2 : q.sortSave = true) (h3 : ∀ a ∈ q.todo, S a) :
    Step E (withProc σ pid p (E.fname a) c l) (withProc σ pid q (E.fname a) c' l') ∧
      AllAsk N S (withProc σ pid q (E.fname a) c' l') := by
  refine ⟨?_, allAsk_with hA h1 h2 h3⟩
  have := ActStep.mk (E := E) (pid := pid) (withProc σ pid p (E.fname a) c l) p a rest g (by simp [withProc]) hr ht hg
  have hf : (withProc σ pid p (E.fname a) c l).files (E.fname a) = c := by simp [withProc]
  have hl : (withProc σ pid p (E.fname a) c l).locks (E.fname a) = l := by simp [withProc]
  rw [hf, hl, ha] at this
  have e := with_with σ pid p q (E.fname a) c c' l l'
  unfold withProc at e this ⊢
  dsimp only at e this
  exact Step.act _ _ pid (by rw [← e]; exact this)

/-- A job that is alone generates the samples of one hypothesis. -/
theorem one_alone {E : Env} {N : ℕ} {S : Hypo → Prop} (brk : Bool) (a : Hypo) (rest : List Hypo) (acc : List (Hypo × List ℝ))
    (s : List ℝ) (hs : E.Gen N a s) (hS : ∀ b ∈ a :: rest, S b) (σ : Sys) (pid : ℕ) (hA : AllAsk N S σ) :
    StepsOf E N S (withProc σ pid ⟨N, brk, true, a :: rest, .check, acc, .running⟩ (E.fname a) none false)
      (withProc σ pid ⟨N, brk, true, rest, .check, acc ++ [(a, SampDist.sort s)], .running⟩ (E.fname a)
        (some (.complete (SampDist.sort s))) false) := by
  have hS' : ∀ b ∈ rest, S b := fun b hb => hS b (by simp [hb])
  have mk : ∀ (pc pc' : Pc) (c c' : Option Content) (l l' : Bool) (g : Option (List ℝ)),
      (∀ s, g = some s → E.Gen N a s) →
      act ⟨N, brk, true, a :: rest, pc, acc, .running⟩ a c l g = (⟨N, brk, true, a :: rest, pc', acc, .running⟩, c', l') →
      StepsOf E N S (withProc σ pid ⟨N, brk, true, a :: rest, pc, acc, .running⟩ (E.fname a) c l)
        (withProc σ pid ⟨N, brk, true, a :: rest, pc', acc, .running⟩ (E.fname a) c' l') :=
    fun pc pc' c c' l l' g hg ha => .single (step_with (rest := rest) g hA rfl rfl hg ha rfl rfl hS)
  refine (mk .check .checkLock none none false false none (by simp) (by simp [act])).trans ?_
  refine (mk .checkLock .lock none none false false none (by simp) (by simp [act])).trans ?_
  refine (mk .lock .gen none none false true none (by simp) (by simp [act])).trans ?_
  refine (mk .gen (.opn (SampDist.sort s)) none none true true (some s) (by simpa using hs) (by simp [act, SampDist.save])).trans ?_
  refine (mk (.opn (SampDist.sort s)) (.write (SampDist.sort s)) none (some .part) true true none (by simp) (by simp [act])).trans ?_
  refine (mk (.write (SampDist.sort s)) (.unlock (SampDist.sort s)) (some .part) (some (.complete (SampDist.sort s))) true true
    none (by simp) (by simp [act])).trans ?_
  exact .single (step_with (rest := rest) none hA rfl rfl (by simp) (by simp [act, Proc.record, Proc.next]) rfl rfl hS')

theorem with_self {σ : Sys} {pid : ℕ} {p : Proc} {f : String} {c : Option Content} {l : Bool}
    (h1 : σ.procs pid = some p) (h2 : σ.files f = c) (h3 : σ.locks f = l) : withProc σ pid p f c l = σ := by
  subst h2 h3
  unfold withProc
  rw [Function.update_eq_self, Function.update_eq_self, ← h1, Function.update_eq_self]

/-- A job that is alone in the directory generates all its samples. -/
theorem all_alone {E : Env} {N : ℕ} {S : Hypo → Prop} (brk : Bool) (t : Hypo → List ℝ) (pid : ℕ) :
    ∀ (l : List Hypo) (acc : List (Hypo × List ℝ)) (σ : Sys), AllAsk N S σ → (∀ a ∈ l, E.Gen N a (t a) ∧ S a) →
      (l.map E.fname).Nodup → (∀ a ∈ l, σ.files (E.fname a) = none ∧ σ.locks (E.fname a) = false) →
      σ.procs pid = some ⟨N, brk, true, l, .check, acc, .running⟩ →
      ∃ σ', StepsOf E N S σ σ' ∧
        σ'.procs pid = some ⟨N, brk, true, [], .check, acc ++ l.map (fun a => (a, SampDist.sort (t a))), .running⟩ ∧
        (∀ a ∈ l, σ'.files (E.fname a) = some (.complete (SampDist.sort (t a)))) ∧
        ∀ f, f ∉ l.map E.fname → σ'.files f = σ.files f := by
  intro l
  induction l with
  | nil => intro acc σ _ _ _ _ hp; exact ⟨σ, .refl, by simpa using hp, (fun a h => by cases h), fun f _ => rfl⟩
  | cons a l ih =>
    intro acc σ hA hG hn hd hp
    have h1 := one_alone (E := E) (N := N) (S := S) brk a l acc (t a) (hG a (by simp)).1 (fun b hb => (hG b hb).2) σ pid hA
    rw [with_self hp (hd a (by simp)).1 (hd a (by simp)).2] at h1
    set σ1 := withProc σ pid ⟨N, brk, true, l, .check, acc ++ [(a, SampDist.sort (t a))], .running⟩ (E.fname a)
        (some (.complete (SampDist.sort (t a)))) false with hσ
    rw [List.map_cons, List.nodup_cons] at hn
    obtain ⟨σ', h2, h3, h4, h5⟩ := ih (acc ++ [(a, SampDist.sort (t a))]) σ1
      (allAsk_with hA rfl rfl (fun b hb => (hG b (by simp [hb])).2)) (fun b hb => hG b (by simp [hb])) hn.2
      (fun b hb => by
        have hne : E.fname b ≠ E.fname a := fun e => hn.1 (by rw [← e]; exact List.mem_map.2 ⟨b, hb, rfl⟩)
        simp only [hσ, withProc, Function.update_of_ne hne]
        exact hd b (by simp [hb]))
      (by simp [hσ, withProc])
    refine ⟨σ', h1.trans h2, by simpa using h3, fun b hb => ?_, fun f hf => ?_⟩
    · rcases List.mem_cons.1 hb with rfl | hb
      · rw [h5 _ hn.1]; simp [hσ, withProc]
      · exact h4 b hb
    · rw [List.map_cons, List.mem_cons, not_or] at hf
      rw [h5 f hf.2]
      simp only [hσ, withProc, Function.update_of_ne hf.1]

/-- From the empty directory: start, and generate. -/
theorem start_alone {E : Env} {N : ℕ} {S : Hypo → Prop} (brk : Bool) (t : Hypo → List ℝ) (pid : ℕ) (l : List Hypo)
    (hG : ∀ a ∈ l, E.Gen N a (t a) ∧ S a) (hn : (l.map E.fname).Nodup) :
    ∃ σ' p, StepsOf E N S Sys.init σ' ∧ σ'.procs pid = some p ∧ p.todo = [] ∧
      p.dists = l.map (fun a => (a, SampDist.sort (t a))) ∧
      ∀ a ∈ l, σ'.files (E.fname a) = some (.complete (SampDist.sort (t a))) := by
  set σ0 : Sys := { Sys.init with procs := Function.update Sys.init.procs pid (some (.start N brk true l)) } with hσ
  have hA : AllAsk N S σ0 := by
    intro i q hq
    by_cases hi : i = pid
    · subst hi
      simp only [hσ, Function.update_self, Option.some.injEq] at hq
      subst hq
      exact ⟨rfl, rfl, fun a ha => (hG a ha).2⟩
    · simp [hσ, Function.update_of_ne hi, Sys.init] at hq
  have h0 : StepsOf E N S Sys.init σ0 := .single ⟨Step.spawn Sys.init pid N brk true l rfl, hA⟩
  obtain ⟨σ', h1, h2, h3, _⟩ := all_alone (E := E) (N := N) (S := S) brk t pid l [] σ0 hA hG hn
    (fun a _ => ⟨rfl, rfl⟩) (by simp [hσ, Proc.start])
  exact ⟨σ', _, h0.trans h1, h2, rfl, by simp, h3⟩

end Verif.Lock
