import Verif.Model.SampleStore
import Verif.Lemmas.LockReload
import Verif.Props.LimitScript
/-!
# C81: sets of sampling distributions loaded by a later session
-/
namespace Verif.Props
open Verif Relation
open Verif.Spec (midP toyCls)

/-- The part of the loop over hypotheses whose files are complete. -/
theorem loadLoop_ok (h : List String → ℕ) (fname : Hypo → String) (files : String → Option Lock.Content)
    (t : Hypo → List ℝ) {K : List String} (hK : K.Nodup) : ∀ (hypos : List Hypo) (d : HDict (List ℝ)), d.WF →
      (∀ a ∈ hypos, Dict.keys a = K) → (∀ a ∈ hypos, files (fname a) = some (.complete (t a))) →
      ∃ d', (∀ rest, Samples.loadLoop h fname files (hypos ++ rest) d = Samples.loadLoop h fname files rest d') ∧ d'.WF ∧
      ∀ b : Hypo, Dict.keys b = K → d'.get? h b = open Classical in if b ∈ hypos then some (t b) else d.get? h b := by
  intro hypos
  induction hypos with
  | nil => intro d hd _ _; exact ⟨d, fun _ => rfl, hd, fun b _ => by simp⟩
  | cons a l ih =>
    intro d hd hk hf
    have hka := hk a (by simp)
    have hwa : a.WF := by unfold Hypo.WF; rw [hka]; exact hK
    have hw1 := HDict.wf_set h hd hwa (SampDist.init 0 none)
    have hw2 := HDict.wf_set h hw1 hwa (t a)
    obtain ⟨d', h1, h2, h3⟩ := ih _ hw2 (fun b hb => hk b (by simp [hb])) (fun b hb => hf b (by simp [hb]))
    refine ⟨d', fun rest => ?_, h2, fun b hb => ?_⟩
    · rw [← h1 rest]
      simp [Samples.loadLoop, hf a (by simp), Lock.Content.read, SampDist.load, SampDist.init]
    · have hwb : b.WF := by unfold Hypo.WF; rw [hb]; exact hK
      rw [h3 b hb, HDict.get?_set h hw1 hwa hwb, HDict.get?_set h hd hwa hwb]
      by_cases hbl : b ∈ l
      · simp [hbl]
      by_cases hab : a = b
      · subst hab
        simp [hbl, Hypo.matches_refl h hwa]
      · have hm : ¬ a.matches h b := fun hm => hab (Hypo.eq_of_eqv_keys hwa (hka.trans hb.symm) hm.2)
        rw [if_neg hbl, if_neg hm, if_neg hm, if_neg (by simp [hbl, Ne.symm hab])]

theorem load_ok (h : List String → ℕ) (fname : Hypo → String) (files : String → Option Lock.Content)
    (t : Hypo → List ℝ) {K : List String} (hK : K.Nodup) (s : Samples) (hd : s.dists.WF)
    (hk : ∀ a ∈ s.hypos, Dict.keys a = K) (hf : ∀ a ∈ s.hypos, files (fname a) = some (.complete (t a))) :
    ∃ s', s.load h fname files = (s', none) ∧ s'.hypos = s.hypos ∧ ∀ a ∈ s.hypos, s'.dists.get? h a = some (t a) := by
  obtain ⟨d', h1, h2, h3⟩ := loadLoop_ok h fname files t hK s.hypos s.dists hd hk hf
  have hl : Samples.loadLoop h fname files s.hypos s.dists = (d', none) := by
    have := h1 []
    rw [List.append_nil] at this
    rw [this]; rfl
  refine ⟨⟨s.hypos, d'⟩, by simp [Samples.load, hl], rfl, fun a ha => ?_⟩
  dsimp only
  rw [h3 a (hk a ha), if_pos ha]

theorem complete_toys {E : Lock.Env} {N : ℕ} {S : Hypo → Prop} (hGen : ∀ a s, E.Gen N a s → s.length = N)
    (hinj : ∀ a b, S a → S b → E.fname a = E.fname b → a = b) {σ : Lock.Sys} (h : Lock.StepsOf E N S Lock.Sys.init σ)
    {hypos : List Hypo} (hS : ∀ a ∈ hypos, S a) (hc : ∀ a ∈ hypos, ∃ s, σ.files (E.fname a) = some (.complete s)) :
    ∃ t : Hypo → List ℝ, ∀ a ∈ hypos, E.Gen N a (t a) ∧ σ.files (E.fname a) = some (.complete (SampDist.sort (t a))) := by
  have key : ∀ a : Hypo, a ∈ hypos → ∃ t, E.Gen N a t ∧ σ.files (E.fname a) = some (.complete (SampDist.sort t)) := by
    intro a ha
    obtain ⟨s, hs⟩ := hc a ha
    obtain ⟨b, hb, hfb, s0, hg, rfl⟩ := (Lock.jobs_inv hGen hinj h).2.1 _ _ hs
    have := hinj b a hb (hS a ha) hfb
    subst this
    exact ⟨s0, hg, hs⟩
  choose! t ht using key
  exact ⟨t, ht⟩

/-- C81: results of concurrent jobs in a later session.  Any number of jobs share a directory, are killed and restarted, break
locks or not; all ask for `N` toys, sort them (the default) and no two of their hypotheses have the same file name.  Whatever
the directory is when the results of all the hypotheses are complete, `load` succeeds; for each of the hypotheses the object
then holds `N` toys generated for this very hypothesis, in increasing order, and the p-value it gives is the mid-p-value among
these toys. -/
theorem c81_load_jobs (h : List String → ℕ) (E : Lock.Env) (N : ℕ) (hN : 0 < N) (S : Hypo → Prop)
    (hGen : ∀ a s, E.Gen N a s → s.length = N) (hinj : ∀ a b, S a → S b → E.fname a = E.fname b → a = b)
    (σ : Lock.Sys) (hσ : Lock.StepsOf E N S Lock.Sys.init σ) (K : List String) (hK : K.Nodup) (s : Samples) (hd : s.dists.WF)
    (hk : ∀ a ∈ s.hypos, Dict.keys a = K) (hS : ∀ a ∈ s.hypos, S a)
    (hc : ∀ a ∈ s.hypos, ∃ l, σ.files (E.fname a) = some (.complete l)) :
    ∃ s', s.load h E.fname σ.files = (s', none) ∧ s'.hypos = s.hypos ∧ ∀ a ∈ s.hypos, ∃ toys l,
      E.Gen N a toys ∧ s'.dists.getItem h a = .ok l ∧ l.Perm toys ∧ l.Pairwise (· ≤ ·) ∧
      ∀ x, s'.pv h a x = .ok (midP toys x) := by
  obtain ⟨t, ht⟩ := complete_toys hGen hinj hσ hS hc
  obtain ⟨s', h1, h2, h3⟩ := load_ok h E.fname σ.files (fun a => SampDist.sort (t a)) hK s hd hk (fun a ha => (ht a ha).2)
  refine ⟨s', h1, h2, fun a ha => ⟨t a, SampDist.sort (t a), (ht a ha).1, (HDict.getItem_ok h _ _ _).2 (h3 a ha),
    SampDist.sort_perm _, SampDist.sort_sorted _, fun x => ?_⟩⟩
  have hne : t a ≠ [] := by
    intro he
    have := hGen a _ (ht a ha).1
    rw [he] at this
    simp at this; omega
  simp only [Samples.pv, (HDict.getItem_ok h _ _ _).2 (h3 a ha), bind_ok]
  exact SampDist.pv_init _ hne x

/-- C81: the same for CLs, with two sets of jobs: the CLs value given after `load` is that of the toys. -/
theorem c81_load_cls (h : List String → ℕ) (Esb Eb : Lock.Env) (N : ℕ) (hN : 0 < N) (S : Hypo → Prop)
    (hGsb : ∀ a s, Esb.Gen N a s → s.length = N) (hGb : ∀ a s, Eb.Gen N a s → s.length = N)
    (hisb : ∀ a b, S a → S b → Esb.fname a = Esb.fname b → a = b) (hib : ∀ a b, S a → S b → Eb.fname a = Eb.fname b → a = b)
    (σsb σb : Lock.Sys) (hsb : Lock.StepsOf Esb N S Lock.Sys.init σsb) (hb : Lock.StepsOf Eb N S Lock.Sys.init σb)
    (K : List String) (hK : K.Nodup) (hypos : List Hypo) (hk : ∀ a ∈ hypos, Dict.keys a = K) (hS : ∀ a ∈ hypos, S a)
    (hcsb : ∀ a ∈ hypos, ∃ l, σsb.files (Esb.fname a) = some (.complete l))
    (hcb : ∀ a ∈ hypos, ∃ l, σb.files (Eb.fname a) = some (.complete l)) :
    ∃ s', CLsSamples.load h Esb.fname Eb.fname σsb.files σb.files ⟨⟨hypos, []⟩, ⟨hypos, []⟩⟩ = (s', none) ∧
      s'.clsb.hypos = hypos ∧ s'.cl_b.hypos = hypos ∧
      ∀ a ∈ hypos, ∃ lsb lb, Esb.Gen N a lsb ∧ Eb.Gen N a lb ∧ ∀ x, s'.pv h a x = .ok (toyCls lsb lb x) := by
  have hnil : ∀ {V : Type}, HDict.WF ([] : HDict V) := fun kv hkv => by cases hkv
  obtain ⟨t1, ht1⟩ := complete_toys hGsb hisb hsb hS hcsb
  obtain ⟨t2, ht2⟩ := complete_toys hGb hib hb hS hcb
  obtain ⟨s1, a1, a2, a3⟩ := load_ok h Esb.fname σsb.files (fun a => SampDist.sort (t1 a)) hK ⟨hypos, []⟩ hnil hk
    (fun a ha => (ht1 a ha).2)
  obtain ⟨s2, b1, b2, b3⟩ := load_ok h Eb.fname σb.files (fun a => SampDist.sort (t2 a)) hK ⟨hypos, []⟩ hnil hk
    (fun a ha => (ht2 a ha).2)
  refine ⟨⟨s1, s2⟩, by simp [CLsSamples.load, a1, b1], a2, b2, fun a ha => ⟨t1 a, t2 a, (ht1 a ha).1, (ht2 a ha).1, fun x => ?_⟩⟩
  have ne : ∀ l : List ℝ, l.length = N → l ≠ [] := by
    rintro l hl rfl
    simp at hl; omega
  have n1 := ne _ (hGsb a _ (ht1 a ha).1)
  have n2 := ne _ (hGb a _ (ht2 a ha).1)
  rw [CLsSamples.pv_eq h ⟨s1, s2⟩ a (t1 a) (t2 a) n1 n2 (a3 a ha) (b3 a ha) x]
  have := (SampDist.midP_range _ n2 x).1
  unfold CLsSamples.clsVal toyCls
  by_cases h0 : midP (t2 a) x = 0
  · rw [if_neg (by rw [h0]; exact lt_irrefl _), if_pos h0]
  · rw [if_pos (lt_of_le_of_ne this (Ne.symm h0)), if_neg h0]

/-- C81: the later session sees what the job saw.  A job works alone in a directory in which all existing results have the
number of toys it asks for.  At any time, what the job holds for a hypothesis is what is in its file: a `load` of these
hypotheses succeeds and holds the same samples. -/
theorem c81_reload_same (h : List String → ℕ) (E : Lock.Env) (N : ℕ) (hGen : ∀ a s, E.Gen N a s → s.length = N)
    (pid : ℕ) (brk srt : Bool) (hypos : List Hypo) (σ σ' : Lock.Sys) (hp : σ.procs pid = some (.start N brk srt hypos))
    (hsize : ∀ f s, σ.files f = some (.complete s) → s.length = N) (hs : Lock.Solo E pid σ σ')
    (K : List String) (hK : K.Nodup) :
    ∃ p, σ'.procs pid = some p ∧ ∀ s : Samples, s.dists.WF → (∀ a ∈ s.hypos, Dict.keys a = K) →
      (∀ a ∈ s.hypos, ∃ l, (a, l) ∈ p.dists) →
      ∃ s', s.load h E.fname σ'.files = (s', none) ∧ ∀ a ∈ s.hypos, ∀ l, (a, l) ∈ p.dists → s'.dists.getItem h a = .ok l := by
  obtain ⟨p, hp', hi⟩ := Lock.reload_held hGen hp hsize hs
  refine ⟨p, hp', fun s hd hk hall => ?_⟩
  choose! t ht using hall
  obtain ⟨s', h1, _, h3⟩ := load_ok h E.fname σ'.files t hK s hd hk (fun a ha => hi.held a _ (ht a ha))
  refine ⟨s', h1, fun a ha l hl => ?_⟩
  have e1 := hi.held a _ (ht a ha)
  rw [hi.held a l hl] at e1
  have : l = t a := by simpa using e1
  rw [this]
  exact (HDict.getItem_ok h _ _ _).2 (h3 a ha)

/-- C81: incomplete results are never taken for results.  If the file of a hypothesis is missing or truncated, `load` raises
`NameError` (the handler that is to report the file uses an undefined name; finding), the hypotheses before it are loaded, and
for this one the object is left with an empty distribution, which gives no p-value. -/
theorem c81_load_incomplete (h : List String → ℕ) (fname : Hypo → String) (files : String → Option Lock.Content)
    (K : List String) (hK : K.Nodup) (s : Samples) (hd : s.dists.WF) (pre : List Hypo) (a : Hypo) (post : List Hypo)
    (hh : s.hypos = pre ++ a :: post) (hk : ∀ b ∈ s.hypos, Dict.keys b = K) (t : Hypo → List ℝ)
    (hpre : ∀ b ∈ pre, files (fname b) = some (.complete (t b))) (hbad : files (fname a) = none ∨ files (fname a) = some .part) :
    ∃ s', s.load h fname files = (s', some .nameError) ∧ (∀ b ∈ pre, b ≠ a → s'.dists.getItem h b = .ok (t b)) ∧
      (∀ x, s'.pv h a x = .error .nan) := by
  have hkp : ∀ b ∈ pre, Dict.keys b = K := fun b hb => hk b (by rw [hh]; simp [hb])
  have hka : Dict.keys a = K := hk a (by rw [hh]; simp)
  have hwa : a.WF := by unfold Hypo.WF; rw [hka]; exact hK
  obtain ⟨d', h1, h2, h3⟩ := loadLoop_ok h fname files t hK pre s.dists hd hkp hpre
  have hl : Samples.loadLoop h fname files s.hypos s.dists = (d'.set h a [], some .nameError) := by
    rw [hh, h1]
    rcases hbad with hb | hb <;> simp [Samples.loadLoop, hb, SampDist.load, Lock.Content.read, SampDist.init]
  refine ⟨⟨s.hypos, d'.set h a []⟩, by simp [Samples.load, hl], fun b hb hne => ?_, fun x => ?_⟩
  · rw [HDict.getItem_ok]
    have hwb : b.WF := by unfold Hypo.WF; rw [hkp b hb]; exact hK
    have hm : ¬ a.matches h b := fun hm => hne (Hypo.eq_of_eqv_keys hwa (hka.trans (hkp b hb).symm) hm.2).symm
    dsimp only
    rw [HDict.get?_set h h2 hwa hwb, if_neg hm, h3 b (hkp b hb), if_pos hb]
  · have : (d'.set h a []).getItem h a = .ok [] := by
      rw [HDict.getItem_ok, HDict.get?_set h h2 hwa hwa, if_pos (Hypo.matches_refl h hwa)]
    simp [Samples.pv, this, SampDist.pv]

/-- C81: `load` does not require a number of toys: it takes all those in the file, where `generate_and_save(n)` refuses a file
with fewer than `n` and takes the first `n` of a file with more. -/
theorem c81_load_all_toys (h : List String → ℕ) (fname : Hypo → String) (files : String → Option Lock.Content) (a : Hypo)
    (ha : a.WF) (s0 : List ℝ) (hf : files (fname a) = some (.complete s0)) :
    (∃ s', (⟨[a], []⟩ : Samples).load h fname files = (s', none) ∧ s'.dists.getItem h a = .ok s0) ∧
    ∀ (n : ℕ) (p : Lock.Proc) (lock : Bool) (g : Option (List ℝ)), 0 < n → p.ntoys = n → p.pc = .load →
      (s0.length < n → (Lock.act p a (files (fname a)) lock g).1.status = .raised .ioError) ∧
      (n ≤ s0.length → (Lock.act p a (files (fname a)) lock g).1.dists = p.dists ++ [(a, s0.take n)]) := by
  constructor
  · obtain ⟨s', h1, _, h3⟩ := load_ok h fname files (fun _ => s0) (K := Dict.keys a) ha ⟨[a], []⟩
      (fun kv hkv => by cases hkv) (by simp) (by simp [hf])
    exact ⟨s', h1, (HDict.getItem_ok h _ _ _).2 (h3 a (by simp))⟩
  · intro n p lock g hn hp hpc
    constructor
    · intro hlt
      simp [Lock.act, hpc, hf, Lock.Content.read, SampDist.load, SampDist.init, hp, hn, hlt, Lock.Proc.raise]
    · intro hle
      have hnlt : ¬ (0 < n ∧ s0.length < n) := by omega
      by_cases hlt : n < s0.length
      · simp [Lock.act, hpc, hf, Lock.Content.read, SampDist.load, SampDist.init, hp, hn, hnlt, hlt,
          Lock.Proc.record, Lock.Proc.next, not_lt.2 hle]
      · have : s0.length = n := by omega
        simp [Lock.act, hpc, hf, Lock.Content.read, SampDist.load, SampDist.init, hp, hn, this,
          Lock.Proc.record, Lock.Proc.next, List.take_of_length_le]

/-- C81: the constructor takes either samplers or hypotheses; with samplers, the hypotheses are theirs, in order. -/
theorem c81_create {P : Type} (testHypo : P → Hypo) (samplers : List P) (hypos : List Hypo) :
    (Samples.create testHypo samplers hypos = .error .valueError ↔ (samplers = [] ↔ hypos = [])) ∧
    (∀ r, Samples.create testHypo samplers hypos = .ok r → r.1 = samplers ∧ r.2.dists = [] ∧
      r.2.hypos = samplers.map testHypo ++ hypos) := by
  rcases samplers with _ | ⟨p, ps⟩ <;> rcases hypos with _ | ⟨a, as⟩ <;>
    simp [Samples.create] <;> rintro r rfl <;> simp

/-- C81 (finding): `generate`, documented to produce the samples without files, never does: the object that the constructor
returns raises `ValueError` without samplers, and `AttributeError` with them, before a single toy. -/
theorem c81_generate_fails {P : Type} (testHypo : P → Hypo) (samplers : List P) (hypos : List Hypo) (r : List P × Samples)
    (hr : Samples.create testHypo samplers hypos = .ok r) :
    r.2.generate r.1 = (r.2, some (if samplers = [] then .valueError else .attributeError)) ∧
    ∀ (s : Samples) {Q : Type} (samplersB : List Q), CLsSamples.generate r.1 samplersB ⟨r.2, s⟩ =
      (⟨r.2, s⟩, some (if samplers = [] then .valueError else .attributeError)) := by
  have key : r.2.generate r.1 = (r.2, some (if samplers = [] then .valueError else .attributeError)) := by
    obtain ⟨h1, _, h3⟩ := (c81_create testHypo samplers hypos).2 r hr
    unfold Samples.generate
    rw [h1, h3]
    rcases samplers with _ | ⟨p, ps⟩ <;> simp
  exact ⟨key, fun s Q samplersB => by simp [CLsSamples.generate, key]⟩

/-- Two hypotheses with their file names and toys. -/
def storeHypos : List Hypo := [[("mu", 0)], [("mu", 1)]]

noncomputable def storeEnv : Lock.Env :=
  ⟨fun a => if a = [("mu", 0)] then "s_0" else "s_1", fun n a s => n = 2 ∧ s = if a = [("mu", 0)] then [1 / 2, 1 / 4] else [1, 0]⟩

theorem storeEnv_inj : ∀ a b : Hypo, a ∈ storeHypos → b ∈ storeHypos → storeEnv.fname a = storeEnv.fname b → a = b := by
  intro a b ha hb he
  simp only [storeHypos, List.mem_cons, List.not_mem_nil, or_false] at ha hb
  rcases ha with rfl | rfl <;> rcases hb with rfl | rfl <;> simp [storeEnv] at he ⊢

/-- A job working alone on these completes both files: `c81_load_jobs` applies. -/
theorem store_job : ∃ σ, Lock.StepsOf storeEnv 2 (· ∈ storeHypos) Lock.Sys.init σ ∧
    ∀ a ∈ storeHypos, ∃ l, σ.files (storeEnv.fname a) = some (.complete l) := by
  obtain ⟨σ, p, h1, _, _, _, h5⟩ := Lock.start_alone (E := storeEnv) (N := 2) (S := (· ∈ storeHypos)) false
    (fun a => if a = [("mu", 0)] then [1 / 2, 1 / 4] else [1, 0]) 0 storeHypos (fun a ha => ⟨⟨rfl, rfl⟩, ha⟩)
    (by simp [storeHypos, storeEnv])
  exact ⟨σ, h1, fun a ha => ⟨_, h5 a ha⟩⟩

theorem storeEnv_gen : ∀ a s, storeEnv.Gen 2 a s → s.length = 2 := by
  rintro a s ⟨_, rfl⟩
  split_ifs <;> rfl

example (h : List String → ℕ) : ∃ σ s', Lock.StepsOf storeEnv 2 (· ∈ storeHypos) Lock.Sys.init σ ∧
    (⟨storeHypos, []⟩ : Samples).load h storeEnv.fname σ.files = (s', none) ∧ s'.hypos = storeHypos := by
  obtain ⟨σ, h1, h2⟩ := store_job
  obtain ⟨s', h3, h4, _⟩ := c81_load_jobs h storeEnv 2 (by norm_num) (· ∈ storeHypos) storeEnv_gen storeEnv_inj σ h1 ["mu"]
    (by simp) ⟨storeHypos, []⟩ (fun kv hkv => by cases hkv) (by simp [storeHypos, Dict.keys]) (fun a ha => ha) h2
  exact ⟨σ, s', h1, h3, h4⟩

/-- The hypotheses of `c81_load_cls` with the same jobs for both samplers. -/
example (h : List String → ℕ) : ∃ σ s', Lock.StepsOf storeEnv 2 (· ∈ storeHypos) Lock.Sys.init σ ∧
    CLsSamples.load h storeEnv.fname storeEnv.fname σ.files σ.files ⟨⟨storeHypos, []⟩, ⟨storeHypos, []⟩⟩ = (s', none) := by
  obtain ⟨σ, h1, h2⟩ := store_job
  obtain ⟨s', h3, _⟩ := c81_load_cls h storeEnv storeEnv 2 (by norm_num) (· ∈ storeHypos) storeEnv_gen storeEnv_gen
    storeEnv_inj storeEnv_inj σ σ h1 h1 ["mu"] (by simp) storeHypos (by simp [storeHypos, Dict.keys]) (fun a ha => ha) h2 h2
  exact ⟨σ, s', h1, h3⟩

/-- `c81_load_incomplete`: the second file is missing. -/
example (h : List String → ℕ) : ∃ s', (⟨storeHypos, []⟩ : Samples).load h storeEnv.fname
    (fun f => if f = "s_0" then some (.complete [1]) else none) = (s', some .nameError) ∧
    s'.dists.getItem h [("mu", 0)] = .ok [1] := by
  obtain ⟨s', h1, h2, _⟩ := c81_load_incomplete h storeEnv.fname (fun f => if f = "s_0" then some (.complete [1]) else none)
    ["mu"] (by simp) ⟨storeHypos, []⟩ (fun kv hkv => by cases hkv) [[("mu", 0)]] [("mu", 1)] [] rfl
    (by simp [storeHypos, Dict.keys]) (fun _ => [1]) (by simp [storeEnv]) (by simp [storeEnv])
  exact ⟨s', h1, h2 _ (by simp) (by simp)⟩

/-- `c81_reload_same`: such a job at its start. -/
example : ∃ σ : Lock.Sys, σ.procs 0 = some (.start 2 false true storeHypos) ∧
    (∀ f s, σ.files f = some (.complete s) → s.length = 2) ∧ σ.files "s_0" ≠ none :=
  ⟨⟨fun f => if f = "s_0" then some (.complete [0, 1]) else none, fun _ => false, fun _ => some (.start 2 false true storeHypos)⟩,
    rfl, by intro f s; dsimp only; split_ifs <;> intro h <;> cases h; rfl, by simp⟩

/-- The constructor of `c81_generate_fails` accepts a list of samplers. -/
example : Samples.create (P := ℕ) (fun n => [("mu", (n : ℝ))]) [1, 2] [] =
    .ok ([1, 2], ⟨[[("mu", ((1 : ℕ) : ℝ))], [("mu", ((2 : ℕ) : ℝ))]], []⟩) := by simp [Samples.create]

end Verif.Props
