import Verif.Lemmas.LockProto
/-! Helper lemmas: a job running alone. -/
namespace Verif.Lock
open Relation

/-- The results are usable, or absent; a lock is left only where results were already there. -/
def FileOK (n : ℕ) (file : Option Content) (lock : Bool) (file0 : Option Content) : Prop :=
  file = none ∨ ∃ s, file = some (.complete s) ∧ n ≤ s.length ∧ (lock = false ∨ file0.isSome)

def PcInv (n : ℕ) (file : Option Content) (lock : Bool) (file0 : Option Content) : Pc → Prop
  | .check => FileOK n file lock file0
  | .load => FileOK n file lock file0 ∧ file.isSome
  | .checkLock => file = none
  | .lock => file = none
  | .gen => file = none ∧ lock = true
  | .opn s => file = none ∧ lock = true ∧ s.length = n
  | .write s => lock = true ∧ s.length = n
  | .unlock s => file = some (.complete s) ∧ lock = true ∧ s.length = n

structure SInv (E : Env) (n : ℕ) (hypos : List Hypo) (files0 : String → Option Content) (σ : Sys)
    (p : Proc) (dn : List Hypo) : Prop where
  split : hypos = dn ++ p.todo
  dists : p.dists.map Prod.fst = dn
  dn : ∀ a ∈ dn, (σ.files (E.fname a)).isSome
  other : ∀ a ∈ hypos, (∀ b, p.todo.head? = some b → E.fname b ≠ E.fname a) →
    FileOK n (σ.files (E.fname a)) (σ.locks (E.fname a)) (files0 (E.fname a))
  cur : ∀ b, p.todo.head? = some b →
    PcInv n (σ.files (E.fname b)) (σ.locks (E.fname b)) (files0 (E.fname b)) p.pc

section
variable {E : Env} {n : ℕ} {hypos : List Hypo} {files0 : String → Option Content} {σ : Sys}
variable {p : Proc} {dn : List Hypo} {a : Hypo} {rest : List Hypo} {pid : ℕ}

/-- Same hypothesis, next position. -/
theorem sinv_same (h : SInv E n hypos files0 σ p dn) (ht : p.todo = a :: rest)
    (file : Option Content) (lock : Bool) (pc : Pc) (q : Proc → Prop)
    (hsome : (σ.files (E.fname a)).isSome → file.isSome)
    (hpc : PcInv n file lock (files0 (E.fname a)) pc) :
    SInv E n hypos files0
      ⟨Function.update σ.files (E.fname a) file, Function.update σ.locks (E.fname a) lock,
        Function.update σ.procs pid (some { p with pc := pc })⟩ { p with pc := pc } dn := by
  refine ⟨h.split, h.dists, ?_, ?_, ?_⟩
  · intro b hb
    dsimp only
    by_cases hf : E.fname b = E.fname a
    · rw [hf, Function.update_self]
      exact hsome (hf ▸ h.dn b hb)
    · rw [Function.update_of_ne hf]; exact h.dn b hb
  · intro b hb hne
    have hf : E.fname b ≠ E.fname a := (hne a (by simp [ht])).symm
    dsimp only
    rw [Function.update_of_ne hf, Function.update_of_ne hf]
    exact h.other b hb hne
  · intro b hb
    have : b = a := by simpa [ht] using hb.symm
    subst this
    dsimp only
    rw [Function.update_self, Function.update_self]; exact hpc

/-- Next hypothesis. -/
theorem sinv_next (h : SInv E n hypos files0 σ p dn) (ht : p.todo = a :: rest)
    (file : Option Content) (lock : Bool) (s : List ℝ) (hfile : file.isSome)
    (hok : FileOK n file lock (files0 (E.fname a))) :
    SInv E n hypos files0
      ⟨Function.update σ.files (E.fname a) file, Function.update σ.locks (E.fname a) lock,
        Function.update σ.procs pid (some ((p.record a s).next))⟩ ((p.record a s).next)
        (dn ++ [a]) := by
  have hall : ∀ b ∈ hypos, FileOK n (Function.update σ.files (E.fname a) file (E.fname b))
      (Function.update σ.locks (E.fname a) lock (E.fname b)) (files0 (E.fname b)) := by
    intro b hb
    by_cases hf : E.fname b = E.fname a
    · rw [hf, Function.update_self, Function.update_self]; exact hok
    · rw [Function.update_of_ne hf, Function.update_of_ne hf]
      refine h.other b hb (fun c hc => ?_)
      have : c = a := by simpa [ht] using hc.symm
      subst this; exact Ne.symm hf
  refine ⟨?_, ?_, ?_, fun b hb _ => hall b hb, ?_⟩
  · rw [h.split, ht]; simp [Proc.next, Proc.record, ht]
  · simp [Proc.next, Proc.record, h.dists]
  · intro b hb
    dsimp only
    by_cases hf : E.fname b = E.fname a
    · rw [hf, Function.update_self]; exact hfile
    · rw [Function.update_of_ne hf]
      rcases List.mem_append.1 hb with hb | hb
      · exact h.dn b hb
      · simp at hb; subst hb; exact absurd rfl hf
  · intro b hb
    have hb' : b ∈ hypos := by
      rw [h.split, ht]
      have : rest.head? = some b := by simpa [Proc.next, Proc.record, ht] using hb
      cases rest with
      | nil => simp at this
      | cons x l => simp at this; subst this; simp
    exact hall b hb'

theorem sinv_step (hGen : ∀ m a s, E.Gen m a s → s.length = m) {σ' : Sys}
    (hp : σ.procs pid = some p) (hr : p.status = .running) (hn : p.ntoys = n)
    (hb : p.breakLocks = true) (h : SInv E n hypos files0 σ p dn) (hs : ActStep E pid σ σ') :
    ∃ p', σ'.procs pid = some p' ∧ p'.ntoys = n ∧ p'.breakLocks = true ∧
      ((p'.status = .raised .unmodelled) ∨
        (p'.status = .running ∧ ∃ dn', SInv E n hypos files0 σ' p' dn')) := by
  cases hs with | mk p' a rest g hp' hr' ht hg =>
  rw [hp] at hp'; cases hp'
  have hcur := h.cur a (by simp [ht])
  refine ⟨_, Function.update_self _ _ _, (act_job p a _ _ g).1.trans hn, (act_job p a _ _ g).2.1.trans hb, ?_⟩
  cases hpc : p.pc with
  | check =>
    rw [hpc] at hcur
    right
    have hA : act p a (σ.files (E.fname a)) (σ.locks (E.fname a)) g =
        ({ p with pc := if (σ.files (E.fname a)).isSome then .load else .checkLock },
          σ.files (E.fname a), σ.locks (E.fname a)) := by simp only [act, hpc]
    rw [hA]
    refine ⟨hr, dn, sinv_same h ht _ _ _ (fun _ => True) (fun h => h) ?_⟩
    by_cases hi : (σ.files (E.fname a)).isSome
    · rw [if_pos hi]; exact ⟨hcur, hi⟩
    · rw [if_neg hi]; simpa [PcInv] using hi
  | load =>
    rw [hpc] at hcur
    right
    obtain ⟨hok, hi⟩ := hcur
    rcases hok with h0 | ⟨s, hfs, hlen, hlk⟩
    · rw [h0] at hi; cases hi
    have : ∃ s', SampDist.load (SampDist.init p.ntoys none) (some s) = .ok s' := by
      simp only [SampDist.load, SampDist.init, List.length_replicate, hn]
      rw [if_neg (by omega)]
      split <;> exact ⟨_, rfl⟩
    obtain ⟨s', hs'⟩ := this
    have hA : act p a (σ.files (E.fname a)) (σ.locks (E.fname a)) g =
        ((p.record a s').next, σ.files (E.fname a), σ.locks (E.fname a)) := by
      simp only [act, hpc, hfs, Option.bind_some, Content.read, hs']
    rw [hA]
    exact ⟨hr, _, sinv_next h ht _ _ s' hi (Or.inr ⟨s, hfs, hlen, hlk⟩)⟩
  | checkLock =>
    rw [hpc] at hcur
    right
    have hA : act p a (σ.files (E.fname a)) (σ.locks (E.fname a)) g =
        ({ p with pc := .lock }, σ.files (E.fname a), σ.locks (E.fname a)) := by
      simp [act, hpc, hb]
    rw [hA]
    exact ⟨hr, dn, sinv_same h ht _ _ _ (fun _ => True) (fun h => h) hcur⟩
  | lock =>
    rw [hpc] at hcur
    right
    have hA : act p a (σ.files (E.fname a)) (σ.locks (E.fname a)) g =
        ({ p with pc := .gen }, σ.files (E.fname a), true) := by
      simp [act, hpc]
    rw [hA]
    exact ⟨hr, dn, sinv_same h ht _ _ _ (fun _ => True) (fun h => h) ⟨hcur, rfl⟩⟩
  | gen =>
    rw [hpc] at hcur
    cases g with
    | none =>
      left
      simp [act, hpc, Proc.raise]
    | some s =>
      right
      have hA : act p a (σ.files (E.fname a)) (σ.locks (E.fname a)) (some s) =
          ({ p with pc := .opn (SampDist.save s p.sortSave) }, σ.files (E.fname a), σ.locks (E.fname a)) := by
        simp [act, hpc]
      rw [hA]
      refine ⟨hr, dn, sinv_same h ht _ _ _ (fun _ => True) (fun h => h) ⟨hcur.1, hcur.2, ?_⟩⟩
      rw [← hn, ← hGen _ _ _ (hg s rfl)]
      unfold SampDist.save; split <;> simp
  | opn s =>
    rw [hpc] at hcur
    right
    have hA : act p a (σ.files (E.fname a)) (σ.locks (E.fname a)) g =
        ({ p with pc := .write s }, some .part, σ.locks (E.fname a)) := by simp [act, hpc]
    rw [hA]
    exact ⟨hr, dn, sinv_same h ht _ _ _ (fun _ => True) (fun _ => rfl) ⟨hcur.2.1, hcur.2.2⟩⟩
  | write s =>
    rw [hpc] at hcur
    right
    have hA : act p a (σ.files (E.fname a)) (σ.locks (E.fname a)) g =
        ({ p with pc := .unlock s }, some (.complete s), σ.locks (E.fname a)) := by simp [act, hpc]
    rw [hA]
    exact ⟨hr, dn, sinv_same h ht _ _ _ (fun _ => True) (fun _ => rfl) ⟨rfl, hcur.1, hcur.2⟩⟩
  | unlock s =>
    rw [hpc] at hcur
    right
    have hA : act p a (σ.files (E.fname a)) (σ.locks (E.fname a)) g =
        ((p.record a s).next, σ.files (E.fname a), false) := by simp [act, hpc, hcur.2.1]
    rw [hA]
    exact ⟨hr, _, sinv_next h ht _ _ s (by rw [hcur.1]; rfl)
      (Or.inr ⟨s, hcur.1, hcur.2.2.ge, Or.inl rfl⟩)⟩

end

/-- How far the process is from the end of its call. -/
def Pc.weight : Pc → ℕ
  | .check => 8 | .load => 7 | .checkLock => 7 | .lock => 6 | .gen => 5 | .opn _ => 4 | .write _ => 3
  | .unlock _ => 2

def Proc.measure (p : Proc) : ℕ :=
  match p.status with
  | .running => 9 * p.todo.length + p.pc.weight
  | _ => 0

theorem act_measure (p : Proc) (a : Hypo) (rest : List Hypo) (ht : p.todo = a :: rest)
    (hr : p.status = .running) (file : Option Content) (lock : Bool) (g : Option (List ℝ)) :
    (act p a file lock g).1.measure < p.measure := by
  unfold act
  cases hpc : p.pc with
  | check =>
    by_cases hi : file.isSome <;> simp [Proc.measure, hr, hpc, Pc.weight, hi]
  | load =>
    dsimp only; split <;>
    simp only [Proc.measure, Proc.next, Proc.record, Proc.raise, hr, hpc, Pc.weight, ht, List.tail_cons,
      List.length_cons] <;> omega
  | checkLock =>
    dsimp only; split <;>
    simp only [Proc.measure, Proc.next, hr, hpc, Pc.weight, ht, List.tail_cons, List.length_cons] <;> omega
  | lock => simp only [Proc.measure, hr, hpc, Pc.weight]; omega
  | gen =>
    dsimp only; split <;>
    simp only [Proc.measure, Proc.raise, hr, hpc, Pc.weight, ht, List.length_cons] <;> omega
  | opn s => simp only [Proc.measure, hr, hpc, Pc.weight]; omega
  | write s => simp only [Proc.measure, hr, hpc, Pc.weight]; omega
  | unlock s =>
    dsimp only; split <;>
    simp only [Proc.measure, Proc.next, Proc.record, Proc.raise, hr, hpc, Pc.weight, ht, List.tail_cons,
      List.length_cons] <;> omega

end Verif.Lock
