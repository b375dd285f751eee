import Verif.Lemmas.Saved
/-!
# C71, C72: results kept in raster files by the scripts, over any history of runs
-/
namespace Verif.Props
open Verif Classical Saved

/-- A run of one of the two scripts; both keep the raster in the same file for the same `--output-file`. -/
inductive Script where
  | fast (run : FastRun)
  | scan (run : ScanRun)

namespace Script

/-- The model parameters. -/
def m : Script → ParModel ℝ
  | .fast r => r.c.m
  | .scan r => r.c.m

/-- What a run leaves in the file, and the raster it uses. -/
noncomputable def run (h : List String → ℕ) : Script → RFile → RFile × Except PyErr Raster
  | .fast r, f => r.run h f
  | .scan r, f => r.run h f

/-- `r` is the raster which this run computes from its own arguments (model, data, hypotheses). -/
def Computes (h : List String → ℕ) (x : Script) (r : Raster) : Prop :=
  match x with
  | .fast run => ∃ full s', expectedHypos h run.c.m run.hypos [] = .ok full ∧
      fastResults h run.c run.k run.data run.hypos full run.s = .ok (s', r)
  | .scan run => ∃ s', tmuResults h run.c run.env (run.hypos.getD []) [] run.freeFit run.s = .ok (s', r)

/-- The hypotheses given on the command line. -/
def hypos : Script → List Hypo
  | .fast r => r.hypos
  | .scan r => r.hypos.getD []

/-- A usual run: the datasets belong to the model, the hypotheses list the same POIs in the same order, the
minimiser is new. -/
structure Usual (x : Script) : Prop where
  names : NamesDistinct x.m
  hypos : ∃ K : List String, K.Nodup ∧ ∀ hy ∈ x.hypos, Dict.keys hy = K
  data : match x with
    | .fast r => r.s.minPars = none ∧ EnvShaped r.c.m r.data.fit ∧
        ∀ a, r.data.asimov = .ok a → EnvShaped r.c.m a
    | .scan r => r.s.minPars = none ∧ EnvShaped r.c.m r.env

end Script

/-- The file after a history of runs; each process has its own hash function. -/
noncomputable def fileAfter (hist : List ((List String → ℕ) × Script)) (f : RFile) : RFile :=
  hist.foldl (fun f x => (x.2.run x.1 f).1) f

/-- Every process which loads the file gets `r`, up to what a file keeps (`Reloaded`, C50). -/
def FileHolds (m : ParModel ℝ) (f : RFile) (r : Raster) : Prop :=
  ∀ h, ∃ r', f.load h m = .ok (some r') ∧
    List.Forall₂ (fun x x' => x'.1 = x.1 ∧ Reloaded m x.2.data x'.2.data) r r'

/-! ### Preparations -/

theorem Saved.Savable.holds {m : ParModel ℝ} {K : List String} (hK : K.Nodup) {hypos : List Hypo} {r : Raster}
    (hd : NamesDistinct m) (h : Savable m K hypos r) :
    ∃ l, Raster.fillDict m r = .ok l ∧ FileHolds m (.stored l) r := by
  obtain ⟨l, r', f1, _, _⟩ := c50_any_raster (fun _ => 0) m r true hd h.entries (h.distinct hK)
  refine ⟨l, f1, fun hh => ?_⟩
  obtain ⟨l', r'', g1, g2, g3⟩ := c50_any_raster hh m r true hd h.entries (h.distinct hK)
  have : l' = l := Except.ok.inj (ε := PyErr) (g1.symm.trans f1)
  subst this
  exact ⟨r'', by simp only [RFile.load, g2, bind_ok, pure_ok], g3⟩

theorem Script.Usual.savable {x : Script} (hu : x.Usual) {h : List String → ℕ} {r : Raster}
    (hc : x.Computes h r) : ∃ K : List String, K.Nodup ∧ Savable x.m K x.hypos r := by
  obtain ⟨K, hK, hk⟩ := hu.hypos
  refine ⟨K, hK, ?_⟩
  cases x with
  | fast run =>
    obtain ⟨full, s', h1, h2⟩ := hc
    obtain ⟨d1, d2, d3⟩ := hu.data
    exact fastResults_savable hK d2 d3
      (expectedHypos_shaped run.hypos [] full (by intro x hx; cases hx) h1) hk d1 h2
  | scan run =>
    obtain ⟨s', h2⟩ := hc
    obtain ⟨d1, d2⟩ := hu.data
    exact tmuResults_savable hK d2 (by intro x hx; cases hx) hk d1 h2

theorem FastRun.compute_inv {h : List String → ℕ} {run : FastRun} {l : List (Dict (MVal ℝ))} {r : Raster}
    (e : run.compute h = .ok (l, r)) : Script.Computes h (.fast run) r ∧ Raster.fillDict run.c.m r = .ok l := by
  unfold FastRun.compute at e
  obtain ⟨full, h1, e1⟩ := bind_eq_ok.1 e
  obtain ⟨⟨s', r'⟩, h2, e2⟩ := bind_eq_ok.1 e1
  simp only at e2
  obtain ⟨l', h3, e3⟩ := bind_eq_ok.1 e2
  have := Except.ok.inj (ε := PyErr) e3
  simp only [Prod.mk.injEq] at this
  obtain ⟨rfl, rfl⟩ := this
  exact ⟨⟨full, s', h1, h2⟩, h3⟩

theorem ScanRun.compute_inv {h : List String → ℕ} {run : ScanRun} {hs : List Hypo}
    {l : List (Dict (MVal ℝ))} {r : Raster} (e : run.compute h hs = .ok (l, r)) :
    (∃ s', tmuResults h run.c run.env hs [] run.freeFit run.s = .ok (s', r)) ∧
      Raster.fillDict run.c.m r = .ok l := by
  unfold ScanRun.compute at e
  by_cases hc : (Raster.haveCompatiblePois hs).length > 2
  · rw [if_pos hc] at e; cases e
  · rw [if_neg hc] at e
    simp only [pure_ok, bind_ok] at e
    obtain ⟨⟨s', r'⟩, h2, e2⟩ := bind_eq_ok.1 e
    simp only at e2
    obtain ⟨l', h3, e3⟩ := bind_eq_ok.1 e2
    have := Except.ok.inj (ε := PyErr) e3
    simp only [Prod.mk.injEq] at this
    obtain ⟨rfl, rfl⟩ := this
    exact ⟨⟨s', h2⟩, h3⟩

/-- A plan without raster has the hypotheses of the command line. -/
theorem ScanRun.plan_none {h : List String → ℕ} {run : ScanRun} {f : RFile} {hs : List Hypo}
    (e : run.plan h f = .ok (hs, none)) : hs = run.hypos.getD [] := by
  unfold ScanRun.plan at e
  obtain ⟨loaded, _, e1⟩ := bind_eq_ok.1 e
  cases hh : run.hypos with
  | none =>
    rw [hh] at e1
    cases loaded with
    | none =>
      have := Except.ok.inj (ε := PyErr) e1
      simp only [Prod.mk.injEq] at this
      exact this.1.symm
    | some r =>
      have := Except.ok.inj (ε := PyErr) e1
      simp at this
  | some hs' =>
    rw [hh] at e1
    cases loaded with
    | none =>
      have := Except.ok.inj (ε := PyErr) e1
      simp only [Prod.mk.injEq] at this
      exact this.1.symm
    | some r =>
      simp only at e1
      obtain ⟨dc, _, e2⟩ := bind_eq_ok.1 e1
      have := Except.ok.inj (ε := PyErr) e2
      simp only [Prod.mk.injEq] at this
      exact this.1.symm

/-- One run either leaves the file as it is, or writes the raster it computes. -/
theorem Script.run_file (h : List String → ℕ) (x : Script) (f : RFile) :
    (x.run h f).1 = f ∨ ∃ l r, (x.run h f).1 = .stored l ∧ Computes h x r ∧ Raster.fillDict x.m r = .ok l := by
  cases x with
  | fast run =>
    show (run.run h f).1 = f ∨ _
    have hh : (run.run h f).1 = f ∨ ∃ l r, (run.run h f).1 = .stored l ∧ run.compute h = .ok (l, r) := by
      unfold FastRun.run
      cases hl : f.load h run.c.m with
      | error e => exact Or.inl rfl
      | ok loaded =>
        cases hc : run.compute h with
        | error e => left; cases loaded <;> cases run.overwrite <;> rfl
        | ok lr =>
          cases loaded <;> cases run.overwrite <;>
            first
              | exact Or.inr ⟨lr.1, lr.2, rfl, rfl⟩
              | exact Or.inl rfl
    rcases hh with hh | ⟨l, r, h1, h2⟩
    · exact Or.inl hh
    · exact Or.inr ⟨l, r, h1, FastRun.compute_inv h2⟩
  | scan run =>
    show (run.run h f).1 = f ∨ _
    have hh : (run.run h f).1 = f ∨ ∃ l r, (run.run h f).1 = .stored l ∧
        run.compute h (run.hypos.getD []) = .ok (l, r) := by
      unfold ScanRun.run
      cases hl : run.plan h f with
      | error e => exact Or.inl rfl
      | ok pl =>
        obtain ⟨hs, o⟩ := pl
        cases o with
        | some r => exact Or.inl rfl
        | none =>
          have := ScanRun.plan_none hl
          subst this
          cases hc : run.compute h (run.hypos.getD []) with
          | error e => left; simp only [hc]
          | ok lr => right; exact ⟨lr.1, lr.2, by simp only [hc], rfl⟩
    rcases hh with hh | ⟨l, r, h1, h2⟩
    · exact Or.inl hh
    · exact Or.inr ⟨l, r, h1, ScanRun.compute_inv h2⟩

theorem fileAfter_append (a b : List ((List String → ℕ) × Script)) (f : RFile) :
    fileAfter (a ++ b) f = fileAfter b (fileAfter a f) := by
  unfold fileAfter; rw [List.foldl_append]

/-! ### C71 -/

/-- C71: whatever runs of both scripts were made, with whatever success, the file is missing or holds
exactly the raster that one of the runs computed from its own arguments. -/
theorem c71_history (m : ParModel ℝ) (hist : List ((List String → ℕ) × Script))
    (hu : ∀ x ∈ hist, x.2.Usual ∧ x.2.m = m) :
    fileAfter hist .missing = .missing ∨
      ∃ x ∈ hist, ∃ r, x.2.Computes x.1 r ∧ FileHolds m (fileAfter hist .missing) r := by
  have key : ∀ l : List ((List String → ℕ) × Script), (∀ x ∈ l, x ∈ hist) →
      fileAfter l .missing = .missing ∨
      ∃ x ∈ hist, ∃ r, x.2.Computes x.1 r ∧ FileHolds m (fileAfter l .missing) r := by
    intro l
    induction l using List.reverseRecOn with
    | nil => intro _; exact Or.inl rfl
    | append_singleton l x ih =>
      intro hl
      rw [fileAfter_append]
      show (x.2.run x.1 (fileAfter l .missing)).1 = _ ∨
        ∃ y ∈ hist, ∃ r, y.2.Computes y.1 r ∧ FileHolds m (x.2.run x.1 (fileAfter l .missing)).1 r
      rcases Script.run_file x.1 x.2 (fileAfter l .missing) with h1 | ⟨l', r, h1, h2, h3⟩
      · rw [h1]
        exact ih (fun y hy => hl y (by simp [hy]))
      · right
        have hx := hl x (by simp)
        obtain ⟨ux, mx⟩ := hu x hx
        obtain ⟨K, hK, sv⟩ := ux.savable h2
        obtain ⟨l'', g1, g2⟩ := sv.holds hK ux.names
        have : l'' = l' := Except.ok.inj (ε := PyErr) (g1.symm.trans h3)
        subst this
        rw [h1]
        rw [mx] at g2
        exact ⟨x, hx, r, h2, g2⟩
  exact key hist fun _ hx => hx

/-- C71: `compute_fast_limits` with no file computes the raster of its arguments, starting each pair of fits
at the values of the hypothesis with all NPs at pull 0, and saves it. -/
theorem c71_first_run (h : List String → ℕ) (run : FastRun) (hu : Script.Usual (.fast run)) (f : RFile) (r : Raster)
    (e : run.run h .missing = (f, .ok r)) :
    FileHolds run.c.m f r ∧ ∃ full s', fastResults h run.c run.k run.data run.hypos full run.s = .ok (s', r) ∧
      ∀ hy ∈ run.hypos, ∃ p, full.get? h hy = some p ∧ Pars.init run.c.m (.dict hy) none = .ok p := by
  have e0 : run.run h .missing = match run.compute h with
      | .error e => (RFile.missing, .error e)
      | .ok (l, r) => (.stored l, .ok r) := by
    unfold FastRun.run
    simp only [RFile.load]
    cases run.overwrite <;> rfl
  rw [e0] at e
  cases hc : run.compute h with
  | error x => rw [hc] at e; simp at e
  | ok lr =>
    obtain ⟨l, r'⟩ := lr
    rw [hc] at e
    simp only [Prod.mk.injEq, Except.ok.injEq] at e
    obtain ⟨rfl, rfl⟩ := e
    obtain ⟨h1, h2⟩ := FastRun.compute_inv hc
    obtain ⟨K, hK, sv⟩ := hu.savable h1
    obtain ⟨l'', g1, g2⟩ := sv.holds hK hu.names
    have : l'' = l := Except.ok.inj (ε := PyErr) (g1.symm.trans h2)
    subst this
    refine ⟨g2, ?_⟩
    obtain ⟨full, s', h3, h4⟩ := h1
    refine ⟨full, s', h4, ?_⟩
    obtain ⟨K', hK', hk⟩ := hu.hypos
    have key : ∀ (hs : List Hypo) (d full : HDict (Pars ℝ)), (∀ a ∈ hs, Dict.keys a = K') →
        (∀ x ∈ d, Dict.keys x.1 = K') →
        (∀ a p, d.get? h a = some p → Dict.keys a = K' → Pars.init run.c.m (.dict a) none = .ok p) →
        expectedHypos h run.c.m hs d = .ok full →
        (∀ a p, full.get? h a = some p → Dict.keys a = K' → Pars.init run.c.m (.dict a) none = .ok p) ∧
        (∀ a, Dict.keys a = K' → (d.get? h a ≠ none ∨ a ∈ hs) → full.get? h a ≠ none) := by
      intro hs
      induction hs with
      | nil =>
        intro d full _ _ hd he
        have := Except.ok.inj (ε := PyErr) he
        subst this
        exact ⟨hd, fun a _ ha => by simpa using ha⟩
      | cons hy hs ih =>
        intro d full hks hkd hd he
        unfold expectedHypos at he
        obtain ⟨p, q1, q2⟩ := bind_eq_ok.1 he
        have hky := hks hy (by simp)
        have gs : ∀ (d : HDict (Pars ℝ)) a, Dict.keys a = K' → (∀ x ∈ d, Dict.keys x.1 = K') →
            (d.set h hy p).get? h a = if a = hy then some p else d.get? h a := by
          intro d a ha
          induction d with
          | nil =>
            intro _
            simp only [HDict.set, HDict.get?]
            by_cases hah : a = hy
            · rw [if_pos hah, if_pos ((matches_iff hK' hky ha).2 hah.symm)]
            · rw [if_neg hah, if_neg (fun hc => hah ((matches_iff hK' hky ha).1 hc).symm)]
          | cons y d ih =>
            intro hkd
            have hyk := hkd y (by simp)
            have ih' := ih (fun x hx => hkd x (by simp [hx]))
            obtain ⟨k', v'⟩ := y
            unfold HDict.set
            by_cases hm : k'.matches h hy
            · rw [if_pos hm]
              have hke := (matches_iff hK' hyk hky).1 hm
              subst hke
              simp only [HDict.get?]
              by_cases hah : a = k'
              · subst hah
                rw [if_pos rfl, if_pos hm]
              · have hne : ¬ k'.matches h a := fun hc => hah ((matches_iff hK' hyk ha).1 hc).symm
                rw [if_neg hah, if_neg hne, if_neg hne]
            · rw [if_neg hm]
              simp only [HDict.get?]
              by_cases hka : k'.matches h a
              · have hke := (matches_iff hK' hyk ha).1 hka
                subst hke
                rw [if_pos hka, if_pos hka, if_neg]
                intro hc
                exact hm ((matches_iff hK' hyk hky).2 hc)
              · rw [if_neg hka, if_neg hka, ih']
        have hkd' : ∀ x ∈ d.set h hy p, Dict.keys x.1 = K' := by
          have : ∀ d : HDict (Pars ℝ), (∀ x ∈ d, Dict.keys x.1 = K') → ∀ x ∈ d.set h hy p, Dict.keys x.1 = K' := by
            intro d
            induction d with
            | nil => intro _ x hx; simp only [HDict.set, List.mem_singleton] at hx; subst hx; exact hky
            | cons y d ih =>
              intro hkd x hx
              unfold HDict.set at hx
              by_cases hm : y.1.matches h hy
              · rw [if_pos hm] at hx
                rcases List.mem_cons.1 hx with rfl | hx
                · exact hkd y (by simp)
                · exact hkd x (by simp [hx])
              · rw [if_neg hm] at hx
                rcases List.mem_cons.1 hx with rfl | hx
                · exact hkd _ (by simp)
                · exact ih (fun z hz => hkd z (by simp [hz])) x hx
          exact this d hkd
        obtain ⟨i1, i2⟩ := ih (d.set h hy p) full (fun a ha => hks a (by simp [ha])) hkd' (by
          intro a p' hp' ha
          rw [gs d a ha hkd] at hp'
          by_cases hah : a = hy
          · rw [if_pos hah] at hp'; cases hp'; rw [hah]; exact q1
          · rw [if_neg hah] at hp'; exact hd a p' hp' ha) q2
        refine ⟨i1, fun a ha hor => i2 a ha ?_⟩
        rw [gs d a ha hkd]
        by_cases hah : a = hy
        · left; rw [if_pos hah]; simp
        · rw [if_neg hah]
          rcases hor with ho | ho
          · exact Or.inl ho
          · rcases List.mem_cons.1 ho with ho | ho
            · exact absurd ho hah
            · exact Or.inr ho
    obtain ⟨k1, k2⟩ := key run.hypos [] full hk (by simp) (by intro a p hp; cases hp) h3
    intro hy hyy
    have := k2 hy (hk hy hyy) (Or.inr hyy)
    obtain ⟨p, hp⟩ := Option.ne_none_iff_exists'.1 this
    exact ⟨p, hp, k1 hy p hp (hk hy hyy)⟩

/-- C71: with `--overwrite` and a file which can be read, the results are those of a run without file. -/
theorem c71_overwrite (h : List String → ℕ) (run : FastRun) (f : RFile) (o : Option Raster)
    (hl : f.load h run.c.m = .ok o) (ho : run.overwrite = true) :
    (run.run h f).2 = (run.run h .missing).2 ∧
      ∀ r, (run.run h .missing).2 = .ok r → (run.run h f).1 = (run.run h .missing).1 := by
  have hm : RFile.missing.load h run.c.m = .ok none := rfl
  unfold FastRun.run
  rw [hl, ho, hm]
  cases run.compute h with
  | error e => cases o <;> exact ⟨rfl, fun r hr => by cases hr⟩
  | ok lr => cases o <;> exact ⟨rfl, fun _ _ => rfl⟩

/-- C71 (F82): once a raster is in the file, every later run of `compute_fast_limits` without `--overwrite`
uses it, whatever its data, hypotheses, test statistic, bounds and optimiser are. -/
theorem c71_reused (m : ParModel ℝ) (f : RFile) (r : Raster) (hf : FileHolds m f r)
    (later : List ((List String → ℕ) × FastRun)) (hl : ∀ x ∈ later, x.2.c.m = m ∧ x.2.overwrite = false)
    (h : List String → ℕ) (run : FastRun) (hm : run.c.m = m) (ho : run.overwrite = false) :
    ∃ r', run.run h (fileAfter (later.map fun x => (x.1, .fast x.2)) f) = (f, .ok r') ∧
      List.Forall₂ (fun x x' => x'.1 = x.1 ∧ Reloaded m x.2.data x'.2.data) r r' := by
  have one : ∀ (h : List String → ℕ) (run : FastRun), run.c.m = m → run.overwrite = false →
      ∃ r', run.run h f = (f, .ok r') ∧
        List.Forall₂ (fun x x' => x'.1 = x.1 ∧ Reloaded m x.2.data x'.2.data) r r' := by
    intro h run hm ho
    obtain ⟨r', h1, h2⟩ := hf h
    refine ⟨r', ?_, h2⟩
    unfold FastRun.run
    rw [hm, h1, ho]
  have hfile : fileAfter (later.map fun x => (x.1, Script.fast x.2)) f = f := by
    clear one
    induction later with
    | nil => rfl
    | cons x l ih =>
      obtain ⟨r', h1, _⟩ := hf x.1
      obtain ⟨hx1, hx2⟩ := hl x (by simp)
      have : (Script.run x.1 (.fast x.2) f).1 = f := by
        show (x.2.run x.1 f).1 = f
        unfold FastRun.run
        rw [hx1, h1, hx2]
      show fileAfter (l.map _) ((Script.run x.1 (.fast x.2) f).1) = f
      rw [this]
      exact ih fun y hy => hl y (by simp [hy])
  rw [hfile]
  exact one h run hm ho

/-- C71 (F83): a run of `compute_fast_limits` that is stopped while it writes the file leaves a file which
makes every later run of the script fail, with or without `--overwrite`; the file stays as it is. -/
theorem c71_crash (h : List String → ℕ) (run : FastRun) (r : Raster) (f : RFile)
    (e : run.run h .missing = (f, .ok r)) (later : List ((List String → ℕ) × FastRun))
    (h' : List String → ℕ) (run' : FastRun) :
    run'.run h' (fileAfter (later.map fun x => (x.1, .fast x.2)) (run.crash h .missing)) =
      (.broken, .error .valueError) := by
  have e1 : run.crash h .missing = .broken := by
    unfold FastRun.run at e
    unfold FastRun.crash
    simp only [RFile.load] at e ⊢
    cases hc : run.compute h with
    | error x => rw [hc] at e; cases run.overwrite <;> simp at e
    | ok lr => cases run.overwrite <;> rfl
  rw [e1]
  have : fileAfter (later.map fun x => (x.1, Script.fast x.2)) .broken = .broken := by
    induction later with
    | nil => rfl
    | cons x l ih => exact ih
  rw [this]
  rfl

/-! ### C72 -/

/-- C72: with `--force-computation` the file is not read at all: results and saved raster are those of a run
without file, also when the file is broken. -/
theorem c72_forced (h : List String → ℕ) (run : ScanRun) (f : RFile) (hf : run.force = true) :
    (run.run h f).2 = (run.run h .missing).2 ∧
      ((run.run h .missing).1 ≠ .missing → (run.run h f).1 = (run.run h .missing).1) := by
  have hp : run.plan h f = run.plan h .missing := by
    unfold ScanRun.plan ScanRun.loaded; rw [hf]; rfl
  unfold ScanRun.run
  rw [hp]
  cases hpl : run.plan h .missing with
  | error e => exact ⟨rfl, fun hc => absurd rfl hc⟩
  | ok pl =>
    obtain ⟨hs, o⟩ := pl
    cases o with
    | some r => exact ⟨rfl, fun hc => absurd rfl hc⟩
    | none =>
      simp only
      cases run.compute h hs with
      | error e => exact ⟨rfl, fun hc => absurd rfl hc⟩
      | ok lr => exact ⟨rfl, fun _ => rfl⟩

/-- C72: without file the scan is made of the `tmu` raster of its arguments, which is saved. -/
theorem c72_first_run (h : List String → ℕ) (run : ScanRun) (hu : Script.Usual (.scan run)) (f : RFile) (r : Raster)
    (e : run.run h .missing = (f, .ok r)) :
    FileHolds run.c.m f r ∧
      ∃ s', tmuResults h run.c run.env (run.hypos.getD []) [] run.freeFit run.s = .ok (s', r) := by
  have hp : run.plan h .missing = .ok (run.hypos.getD [], none) := by
    unfold ScanRun.plan ScanRun.loaded
    cases run.force <;> cases run.hypos <;> rfl
  unfold ScanRun.run at e
  rw [hp] at e
  simp only at e
  cases hc : run.compute h (run.hypos.getD []) with
  | error x => rw [hc] at e; simp at e
  | ok lr =>
    obtain ⟨l, r'⟩ := lr
    rw [hc] at e
    simp only [Prod.mk.injEq] at e
    obtain ⟨rfl, e2⟩ := e
    unfold ScanRun.finish at e2
    by_cases hn : Raster.haveCompatiblePois (run.hypos.getD []) = []
    · rw [if_pos hn] at e2; cases e2
    · rw [if_neg hn] at e2
      have := Except.ok.inj (ε := PyErr) e2
      subst this
      obtain ⟨h1, h2⟩ := ScanRun.compute_inv hc
      obtain ⟨K, hK, sv⟩ := hu.savable (x := .scan run) h1
      obtain ⟨l'', g1, g2⟩ := sv.holds hK hu.names
      have : l'' = l := Except.ok.inj (ε := PyErr) (g1.symm.trans h2)
      subst this
      exact ⟨g2, h1⟩

/-- The loaded raster passes the check against the hypotheses `hs`. -/
def Covers (r : Raster) (hs : List Hypo) : Prop :=
  r.length = hs.length ∧ ∀ hy ∈ hs, ∃ e ∈ r, SameHypo e.1 hy

theorem check_eq {hs : List Hypo} {ov : Bool} {r : Raster} (hr : ∀ e ∈ r, (Dict.keys e.1).Nodup)
    (hh : ∀ hy ∈ hs, (Dict.keys hy).Nodup) :
    ScanRun.check hs ov r = if Covers r hs then .ok false else if ov then .ok true else .error .keyError := by
  have hall : hs.all (fun hy => r.any (fun e => decide (e.1.eqv hy))) = true ↔
      ∀ hy ∈ hs, ∃ e ∈ r, SameHypo e.1 hy := by
    simp only [List.all_eq_true, List.any_eq_true, decide_eq_true_eq]
    constructor
    · intro h1 hy hyy
      obtain ⟨e, he, h2⟩ := h1 hy hyy
      exact ⟨e, he, (c35_equality _ _ (hr e he) (hh hy hyy)).1 h2⟩
    · intro h1 hy hyy
      obtain ⟨e, he, h2⟩ := h1 hy hyy
      exact ⟨e, he, (c35_equality _ _ (hr e he) (hh hy hyy)).2 h2⟩
  unfold ScanRun.check
  by_cases hl : r.length = hs.length
  · rw [if_neg (by simpa using hl)]
    simp only [pure_ok, bind_ok]
    by_cases hc : ∀ hy ∈ hs, ∃ e ∈ r, SameHypo e.1 hy
    · rw [if_pos (hall.2 hc), if_pos (show Covers r hs from ⟨hl, hc⟩)]
    · rw [if_neg (fun hx => hc (hall.1 hx)), if_neg (fun hx : Covers r hs => hc hx.2)]
      cases ov <;> rfl
  · rw [if_pos (by simpa using hl), if_neg (fun hx : Covers r hs => hl hx.1)]
    cases ov with
    | false => rfl
    | true =>
      simp only [if_true, pure_ok, bind_ok]
      by_cases hc : hs.all (fun hy => r.any (fun e => decide (e.1.eqv hy))) = true
      · rw [if_pos hc]
      · rw [if_neg hc]

/-- C72: what a run does with a file that holds the raster `r`, for a list `hs` of hypotheses: if the
raster has as many hypotheses as the list and all of the list are in it, it is used, whatever the data and
the options of the run; otherwise it is computed again with `--overwrite`, and refused without. -/
theorem c72_with_file (m : ParModel ℝ) (f : RFile) (r : Raster) (hf : FileHolds m f r)
    (hr : ∀ e ∈ r, (Dict.keys e.1).Nodup) (h : List String → ℕ) (run : ScanRun) (hm : run.c.m = m)
    (hs : List Hypo) (hh : run.hypos = some hs) (hw : ∀ hy ∈ hs, (Dict.keys hy).Nodup)
    (hfo : run.force = false) :
    (Covers r hs → ∃ r', List.Forall₂ (fun x x' => x'.1 = x.1 ∧ Reloaded m x.2.data x'.2.data) r r' ∧
        run.run h f = (f, if Raster.haveCompatiblePois hs = [] then .error .indexError else .ok r')) ∧
    (¬ Covers r hs → run.overwrite = false → run.run h f = (f, .error .keyError)) ∧
    (¬ Covers r hs → run.overwrite = true → (run.run h f).2 = (run.run h .missing).2 ∧
      ((run.run h .missing).1 ≠ .missing → (run.run h f).1 = (run.run h .missing).1)) := by
  obtain ⟨r', h1, h2⟩ := hf h
  have hk : r'.map Prod.fst = r.map Prod.fst := Raster.forall2_keys (h2.imp fun _ _ x => x.1)
  have hr' : ∀ e ∈ r', (Dict.keys e.1).Nodup := by
    intro e he
    have : e.1 ∈ r.map Prod.fst := by rw [← hk]; exact List.mem_map_of_mem he
    obtain ⟨e0, he0, h3⟩ := List.mem_map.1 this
    rw [← h3]; exact hr e0 he0
  have hcov : Covers r' hs ↔ Covers r hs := by
    unfold Covers
    have hlen : r'.length = r.length := by rw [h2.length_eq]
    have hex : ∀ hy, (∃ e ∈ r', SameHypo e.1 hy) ↔ ∃ e ∈ r, SameHypo e.1 hy := by
      intro hy
      have a1 : (∃ e ∈ r', SameHypo e.1 hy) ↔ ∃ k ∈ r'.map Prod.fst, SameHypo k hy := by
        simp only [List.mem_map]
        constructor
        · rintro ⟨e, he, h3⟩; exact ⟨e.1, ⟨e, he, rfl⟩, h3⟩
        · rintro ⟨k, ⟨e, he, rfl⟩, h3⟩; exact ⟨e, he, h3⟩
      have a2 : (∃ e ∈ r, SameHypo e.1 hy) ↔ ∃ k ∈ r.map Prod.fst, SameHypo k hy := by
        simp only [List.mem_map]
        constructor
        · rintro ⟨e, he, h3⟩; exact ⟨e.1, ⟨e, he, rfl⟩, h3⟩
        · rintro ⟨k, ⟨e, he, rfl⟩, h3⟩; exact ⟨e, he, h3⟩
      rw [a1, a2, hk]
    rw [hlen]
    constructor
    · rintro ⟨a, b⟩; exact ⟨a, fun hy hyy => (hex hy).1 (b hy hyy)⟩
    · rintro ⟨a, b⟩; exact ⟨a, fun hy hyy => (hex hy).2 (b hy hyy)⟩
  have hplan : run.plan h f = (ScanRun.check hs run.overwrite r').bind
      (fun dc => .ok (hs, if dc then none else some r')) := by
    unfold ScanRun.plan ScanRun.loaded
    rw [hfo, hm, h1, hh]
    rfl
  have hpm : run.plan h .missing = .ok (hs, none) := by
    unfold ScanRun.plan ScanRun.loaded
    rw [hfo, hh]
    rfl
  rw [check_eq hr' hw] at hplan
  refine ⟨fun hc => ⟨r', h2, ?_⟩, fun hc ho => ?_, fun hc ho => ?_⟩
  · rw [if_pos (hcov.2 hc)] at hplan
    unfold ScanRun.run
    rw [hplan]
    rfl
  · rw [if_neg (fun hx => hc (hcov.1 hx)), ho] at hplan
    unfold ScanRun.run
    rw [hplan]
    rfl
  · rw [if_neg (fun hx => hc (hcov.1 hx)), ho] at hplan
    have hplan' : run.plan h f = .ok (hs, none) := hplan
    unfold ScanRun.run
    rw [hplan', hpm]
    simp only
    cases run.compute h hs with
    | error e => exact ⟨rfl, fun hx => absurd rfl hx⟩
    | ok lr => exact ⟨rfl, fun _ => rfl⟩

/-- C72: when all hypotheses of the list are different, a raster that is used has exactly these
hypotheses. -/
theorem c72_covers_exactly (r : Raster) (hs : List Hypo) (hc : Covers r hs)
    (hd : hs.Pairwise (fun a b => ¬ SameHypo a b)) : ∀ e ∈ r, ∃ hy ∈ hs, SameHypo e.1 hy := by
  obtain ⟨hl, hm⟩ := hc
  -- an index for each hypothesis of the list
  have hex : ∀ i : Fin hs.length, ∃ j : Fin hs.length, SameHypo (r[j.val]'(by rw [hl]; exact j.isLt)).1 hs[i] := by
    intro i
    obtain ⟨e, he, h1⟩ := hm hs[i] (List.getElem_mem _)
    obtain ⟨j, hj, rfl⟩ := List.getElem_of_mem he
    exact ⟨⟨j, hl ▸ hj⟩, h1⟩
  choose g hg using hex
  have hinj : Function.Injective g := by
    intro i j hij
    by_contra hne
    have hs' : SameHypo hs[i] hs[j] := by
      intro k
      rw [← hg i k, ← hg j k, hij]
    have hs'' : SameHypo hs[j] hs[i] := fun k => (hs' k).symm
    rw [List.pairwise_iff_getElem] at hd
    rcases lt_or_gt_of_ne (fun hc => hne (Fin.ext hc) : i.val ≠ j.val) with hlt | hlt
    · exact hd i.val j.val i.isLt j.isLt hlt hs'
    · exact hd j.val i.val j.isLt i.isLt hlt hs''
  have hsur := Finite.surjective_of_injective hinj
  intro e he
  obtain ⟨j, hj, rfl⟩ := List.getElem_of_mem he
  obtain ⟨i, hi⟩ := hsur ⟨j, hl ▸ hj⟩
  refine ⟨hs[i], List.getElem_mem _, ?_⟩
  have := hg i
  rw [hi] at this
  exact this

/-- C72 (F84): a list in which a hypothesis is repeated: a first run succeeds, the same run made again is
refused. -/
theorem c72_repeated_refused (h h' : List String → ℕ) (run : ScanRun) (hu : Script.Usual (.scan run))
    (f : RFile) (r : Raster) (e : run.run h .missing = (f, .ok r)) (hs : List Hypo) (hh : run.hypos = some hs)
    (hrep : ¬ hs.Nodup) (hfo : run.force = false) (ho : run.overwrite = false) :
    run.run h' f = (f, .error .keyError) := by
  obtain ⟨h1, s', h2⟩ := c72_first_run h run hu f r e
  obtain ⟨K, hK, sv⟩ := hu.savable (x := .scan run) ⟨s', h2⟩
  have hy : Script.hypos (.scan run) = hs := by simp [Script.hypos, hh]
  rw [hy] at sv
  have hnd : ∀ e ∈ r, (Dict.keys e.1).Nodup := fun e he => by rw [sv.keys e he]; exact hK
  refine (c72_with_file _ f r h1 hnd h' run rfl hs hh ?_ hfo).2.1 ?_ ho
  · intro a ha
    have := (sv.mem a).2 ha
    obtain ⟨e, he, rfl⟩ := List.mem_map.1 this
    exact hnd e he
  · rintro ⟨hl, _⟩
    apply hrep
    have hlen : (r.map Prod.fst).length = hs.length := by rw [List.length_map]; exact hl
    have hsub : (r.map Prod.fst) ⊆ hs := fun a ha => (sv.mem a).1 ha
    have hperm : (r.map Prod.fst).Subperm hs := List.subperm_of_subset sv.nodup hsub
    exact (hperm.perm_of_length_le hlen.ge).nodup_iff.1 sv.nodup

/-- C72 (F84): a raster can be used although one of its hypotheses is not in the list, when the list repeats
another. -/
theorem c72_covers_more (d : REntry) :
    Covers [([("mu", 1)], d), ([("mu", 2)], d)] [[("mu", 1)], [("mu", 1)]] ∧
      ¬ ∃ hy ∈ ([[("mu", 1)], [("mu", 1)]] : List Hypo), SameHypo [("mu", 2)] hy := by
  refine ⟨⟨rfl, ?_⟩, ?_⟩
  · intro hy hyy
    refine ⟨([("mu", 1)], d), by simp, ?_⟩
    simp only [List.mem_cons, List.not_mem_nil, or_false, or_self] at hyy
    subst hyy
    exact fun _ => rfl
  · rintro ⟨hy, hyy, hs⟩
    simp only [List.mem_cons, List.not_mem_nil, or_false, or_self] at hyy
    subst hyy
    have := hs "mu"
    simp [Dict.get?] at this

/-- C72 (F85): a scan of a single hypothesis always ends with `IndexError`; the raster was saved. -/
theorem c72_single_hypothesis (h : List String → ℕ) (run : ScanRun) (f : RFile) (hy : Hypo)
    (hh : run.hypos = some [hy]) (r : Raster) : (run.run h f).2 ≠ .ok r := by
  unfold ScanRun.run
  cases hp : run.plan h f with
  | error e => simp
  | ok pl =>
    obtain ⟨hs, o⟩ := pl
    have hhs : hs = [hy] := by
      unfold ScanRun.plan at hp
      obtain ⟨loaded, _, e1⟩ := bind_eq_ok.1 hp
      rw [hh] at e1
      cases loaded with
      | none =>
        have := Except.ok.inj (ε := PyErr) e1
        simp only [Prod.mk.injEq] at this
        exact this.1.symm
      | some r =>
        simp only at e1
        obtain ⟨dc, _, e2⟩ := bind_eq_ok.1 e1
        have := Except.ok.inj (ε := PyErr) e2
        simp only [Prod.mk.injEq] at this
        exact this.1.symm
    subst hhs
    cases o with
    | some r => simp [ScanRun.finish, Raster.haveCompatiblePois]
    | none =>
      simp only
      cases run.compute h [hy] with
      | error e => simp
      | ok lr => simp [ScanRun.finish, Raster.haveCompatiblePois]

/-- C72: scans of three or more POIs are refused, and nothing is saved. -/
theorem c72_three_pois (h : List String → ℕ) (run : ScanRun) (hs : List Hypo) (hh : run.hypos = some hs)
    (hl : 2 ≤ hs.length) (K : List String) (hK : ∀ hy ∈ hs, Dict.keys hy = K) (h3 : 3 ≤ K.length) :
    run.run h .missing = (.missing, .error .valueError) := by
  have hp : Raster.haveCompatiblePois hs = K := by
    match hs, hl with
    | a :: b :: l, _ =>
      simp only [Raster.haveCompatiblePois]
      rw [if_neg, hK a (by simp)]
      simp only [List.any_eq_true, not_exists, not_and]
      intro x hx
      rw [hK a (by simp), hK x (List.mem_cons_of_mem _ hx)]
      simp
  have hplan : run.plan h .missing = .ok (hs, none) := by
    unfold ScanRun.plan ScanRun.loaded
    rw [hh]
    cases run.force <;> rfl
  unfold ScanRun.run
  rw [hplan]
  simp only [ScanRun.compute]
  rw [hp, if_pos (by omega)]
  rfl

/-! ### The hypotheses are met -/

/-- The fits of a statistical model meet the condition on datasets. -/
theorem fitEnv_shaped {n P : Nat} (m : Mdl n P) (A : Mdl.Arrays) (d : Mdl.DataV P) (niter : Nat)
    (floor : Option ℝ) : EnvShaped m.parModel (m.fitEnv A d niter floor) := by
  intro p q hq
  simp only [Mdl.fitEnv] at hq
  by_cases hc : p.pois.length = n ∧ p.nps.length = P
  · rw [if_pos hc] at hq
    obtain ⟨θ, _, h2⟩ := bind_eq_ok.1 hq
    rw [← Except.ok.inj (ε := PyErr) h2]
    simp [Shaped, Mdl.parModel, hc.1]
  · rw [if_neg hc] at hq; cases hq

/-! Runs with the example of `CalcTmu` (one POI, NLL `(a - 1)^2`). -/

theorem one_shaped : EnvShaped oneSetup.m oneEnv := by
  intro p q hq
  obtain ⟨a, b⟩ := p
  simp only [oneEnv] at hq
  split at hq
  · cases hq
    simp [Shaped, oneSetup]
  · cases hq

theorem one_names : NamesDistinct oneSetup.m := by
  simp [NamesDistinct, oneSetup]

/-- Two hypotheses. -/
noncomputable def oneFastRun (k : CalcKind) (ov : Bool) : FastRun :=
  ⟨oneSetup, k, ⟨oneEnv, .ok oneEnv⟩, [[("a", 2)], [("a", 3)]], { method := "scalar", tmuDebug := 0 }, ov⟩

/-- Two hypotheses. -/
noncomputable def oneScanRun (hs : List Hypo) (fo ov : Bool) : ScanRun :=
  ⟨oneSetup, oneEnv, some hs, { method := "scalar", tmuDebug := 0 }, "all", fo, ov⟩

theorem one_fast_usual (k : CalcKind) (ov : Bool) : Script.Usual (.fast (oneFastRun k ov)) where
  names := one_names
  hypos := ⟨["a"], by simp, by
    intro hy hyy
    simp only [Script.hypos, oneFastRun, List.mem_cons, List.not_mem_nil, or_false] at hyy
    rcases hyy with rfl | rfl <;> rfl⟩
  data := ⟨rfl, one_shaped, fun a ha => by cases ha; exact one_shaped⟩

theorem one_scan_usual (hs : List Hypo) (hk : ∀ hy ∈ hs, Dict.keys hy = ["a"]) (fo ov : Bool) :
    Script.Usual (.scan (oneScanRun hs fo ov)) where
  names := one_names
  hypos := ⟨["a"], by simp, hk⟩
  data := ⟨rfl, one_shaped⟩

/-- A first run of `compute_fast_limits` succeeds (C71). -/
theorem one_fast_first (k : CalcKind) (ov : Bool) : ∃ f r, (oneFastRun k ov).run (fun _ => 0) .missing = (f, .ok r) := by
  have hfull : expectedHypos (fun _ => 0) oneSetup.m [[("a", 2)], [("a", 3)]] [] =
      .ok [([("a", 2)], ⟨[2], []⟩), ([("a", 3)], ⟨[3], []⟩)] := by
    have i2 : ∀ v : ℝ, Pars.init oneSetup.m (.dict [("a", v)]) none = .ok ⟨[v], []⟩ := fun v => rfl
    simp only [expectedHypos, i2, bind_ok, HDict.set]
    rw [if_neg one_no_match]
  obtain ⟨_, s', r, hr⟩ := one_fastResults k [([("a", 2)], ⟨[2], []⟩), ([("a", 3)], ⟨[3], []⟩)] (by
    intro v
    simp only [HDict.get?]
    split_ifs
    · exact ⟨2, rfl⟩
    · exact ⟨3, rfl⟩
    · exact ⟨0, rfl⟩)
  have hc : Script.Computes (fun _ => 0) (.fast (oneFastRun k ov)) r := ⟨_, s', hfull, hr⟩
  obtain ⟨K, hK, sv⟩ := (one_fast_usual k ov).savable hc
  obtain ⟨l, hl, _⟩ := sv.holds hK one_names
  have hcomp : (oneFastRun k ov).compute (fun _ => 0) = .ok (l, r) := by
    unfold FastRun.compute
    rw [show (oneFastRun k ov).c.m = oneSetup.m from rfl,
      show (oneFastRun k ov).hypos = [[("a", 2)], [("a", 3)]] from rfl, hfull, bind_ok]
    have hr' : fastResults (fun _ => 0) (oneFastRun k ov).c (oneFastRun k ov).k (oneFastRun k ov).data
        [[("a", 2)], [("a", 3)]] [([("a", 2)], ⟨[2], []⟩), ([("a", 3)], ⟨[3], []⟩)] (oneFastRun k ov).s =
        .ok (s', r) := hr
    rw [hr', bind_ok]
    simp only
    have hl' : Raster.fillDict oneSetup.m r = .ok l := hl
    rw [hl', bind_ok]
    rfl
  refine ⟨.stored l, r, ?_⟩
  unfold FastRun.run
  simp only [RFile.load]
  cases ov <;> simp [hcomp]

/-- A first run of `poi_scan` succeeds (C72) if the raster can be computed. -/
theorem one_scan_ok (hs : List Hypo) (hk : ∀ hy ∈ hs, Dict.keys hy = ["a"])
    (hp : Raster.haveCompatiblePois hs = ["a"]) (fo ov : Bool)
    (hr : ∃ s' r, tmuResults (fun _ => 0) oneSetup oneEnv hs [] "all" { method := "scalar", tmuDebug := 0 } =
      .ok (s', r)) : ∃ f r, (oneScanRun hs fo ov).run (fun _ => 0) .missing = (f, .ok r) := by
  obtain ⟨s', r, hr⟩ := hr
  obtain ⟨K, hK, sv⟩ := (one_scan_usual hs hk fo ov).savable (x := .scan _) (h := fun _ => 0) (r := r) ⟨s', hr⟩
  obtain ⟨l, hl, _⟩ := sv.holds hK one_names
  refine ⟨.stored l, r, ?_⟩
  have hcomp : (oneScanRun hs fo ov).compute (fun _ => 0) hs = .ok (l, r) := by
    unfold ScanRun.compute
    rw [hp, if_neg (by simp)]
    simp only [pure_ok, bind_ok]
    have hr' : tmuResults (fun _ => 0) (oneScanRun hs fo ov).c (oneScanRun hs fo ov).env
        hs [] (oneScanRun hs fo ov).freeFit (oneScanRun hs fo ov).s = .ok (s', r) := hr
    rw [hr', bind_ok]
    simp only
    have hl' : Raster.fillDict (oneScanRun hs fo ov).c.m r = .ok l := hl
    rw [hl', bind_ok]
  have hplan : (oneScanRun hs fo ov).plan (fun _ => 0) .missing = .ok (hs, none) := by
    unfold ScanRun.plan ScanRun.loaded
    cases fo <;> rfl
  unfold ScanRun.run
  rw [hplan]
  simp only [hcomp, ScanRun.finish]
  rw [if_neg (by rw [hp]; simp)]

theorem one_scan_first (fo ov : Bool) : ∃ f r,
    (oneScanRun [[("a", 2)], [("a", 3)]] fo ov).run (fun _ => 0) .missing = (f, .ok r) :=
  one_scan_ok _ (by
    intro hy hyy
    simp only [List.mem_cons, List.not_mem_nil, or_false] at hyy
    rcases hyy with rfl | rfl <;> rfl) (by simp [Raster.haveCompatiblePois, Dict.keys]) fo ov
    (one_tmuResults "all" (Or.inl rfl))

/-- The two runs after one another in any number of later processes: the file of the first run is used again
(C71), with and without `--overwrite`. -/
example (k k' : CalcKind) (n : ℕ) : ∃ f r r', (oneFastRun k false).run (fun _ => 0) .missing = (f, .ok r) ∧
    (oneFastRun k' false).run (fun _ => 1)
      (fileAfter ((List.replicate n ((fun _ => 2), oneFastRun k' false)).map fun x => (x.1, .fast x.2)) f) =
      (f, .ok r') := by
  obtain ⟨f, r, h1⟩ := one_fast_first k false
  obtain ⟨h2, _⟩ := c71_first_run _ _ (one_fast_usual k false) f r h1
  obtain ⟨r', h3, _⟩ := c71_reused oneSetup.m f r h2 (List.replicate n ((fun _ => 2), oneFastRun k' false))
    (fun x hx => by rw [List.eq_of_mem_replicate hx]; exact ⟨rfl, rfl⟩) (fun _ => 1) (oneFastRun k' false) rfl rfl
  exact ⟨f, r, r', h1, h3⟩

/-- `poi_scan` for a list that repeats a hypothesis. -/
theorem one_repeated : ∃ s' r, tmuResults (fun _ => 0) oneSetup oneEnv [[("a", 2)], [("a", 2)]] [] "all"
    { method := "scalar", tmuDebug := 0 } = .ok (s', r) := by
  have hm : ∀ v : ℝ, Hypo.matches (fun _ => 0) [("a", v)] [("a", v)] := fun v =>
    Hypo.matches_refl _ (by simp [Hypo.WF, Dict.keys])
  obtain ⟨s1, hs1, e1⟩ := one_step .all { method := "scalar", tmuDebug := 0 }
    ⟨rfl, rfl, rfl, Or.inl rfl⟩ 2 (by norm_num) (by norm_num) []
  obtain ⟨s2, hs2, e2⟩ := one_step .all s1 hs1 2 (by norm_num) (by norm_num)
    (HDict.set (fun _ => 0) [] [("a", 2)] (oneAcc .all 2))
  have hl : tmuLoop (fun _ => 0) oneSetup .all oneEnv [] [[("a", 2)], [("a", 2)]]
      { method := "scalar", tmuDebug := 0 } [] = .ok (s2, [([("a", 2)], oneAcc .all 2)]) := by
    simp only [tmuLoop, e1, bind_ok, e2]
    congr 2
    simp [HDict.set, hm]
  have u1 : ∃ d, PLRData.update oneSetup.m (oneAcc .all 2).1 = .ok d := by
    unfold PLRData.update
    rw [if_pos (by simp [oneAcc, Dict.keys, oneSetup]), if_pos (by simp [oneAcc, Dict.keys])]
    exact ⟨_, PLRData.computeTmu_ok.2 ⟨_, _, ⟨_, _, rfl, rfl, rfl, rfl⟩, rfl⟩⟩
  obtain ⟨d, hd⟩ := u1
  obtain ⟨y1, y2, y3⟩ := update_fixed hd
  have u2 : ∃ d', PLRData.update oneSetup.m d = .ok d' := by
    unfold PLRData.update
    rw [if_pos (by rw [y1]; simp [oneAcc, Dict.keys, oneSetup])]
    split_ifs
    · exact ⟨_, PLRData.computeTmu_ok.2 ⟨_, _, ⟨_, _, y2, y3, rfl, rfl⟩, rfl⟩⟩
    · exact ⟨_, rfl⟩
  obtain ⟨d', hd'⟩ := u2
  obtain ⟨z1, z2, z3⟩ := update_fixed hd'
  have hfin : tmuFinish (fun _ => 0) oneSetup none [[("a", 2)], [("a", 2)]] [([("a", 2)], oneAcc .all 2)] =
      .ok [([("a", 2)], (d', ⟨[2], []⟩))] := by
    simp only [tmuFinish, HDict.getItem, HDict.get?, hm, if_true, bind_ok, withFree, hd, HDict.set]
    simp only [hd', bind_ok]
    rfl
  obtain ⟨r1, h1⟩ := init_succeeds (fun _ => 0) oneSetup.m [([("a", 2)], ⟨d', none⟩)] (fun e he => by
      simp only [List.mem_cons, List.not_mem_nil, or_false] at he
      subst he
      exact ⟨_, _, _, _, z2.trans y2, z3.trans y3, rfl, rfl⟩) (fun e he => by
      simp only [List.mem_cons, List.not_mem_nil, or_false] at he
      subst he; simp [Hypo.WF, Dict.keys]) (fun e he => by
      simp only [List.mem_cons, List.not_mem_nil, or_false] at he
      subst he; simp [Dict.keys, oneSetup])
  obtain ⟨r2, h2⟩ := fillAll_succeeds .tmu r1 (fun e he => by
    obtain ⟨x, hx, _, a, b, k1, k2⟩ := forall2_exists_left (Raster.init_spec h1) e he
    rw [k2]
    unfold fillPv makeTMu
    simp only
    rw [Dict.getItem_ok.2 (Dict.get?_set_self _ _ _), bind_ok]
    exact ⟨_, rfl⟩)
  refine ⟨s2, r2, ?_⟩
  unfold tmuResults
  rw [show FreeFit.ofString "all" = .ok .all from rfl, bind_ok, hl, bind_ok]
  simp only [freeStage, bind_ok]
  rw [hfin, bind_ok]
  simp only [List.map_cons, List.map_nil]
  rw [h1, bind_ok, h2, bind_ok]
  rfl

/-- The case of F84. -/
example : ∃ f r, (oneScanRun [[("a", 2)], [("a", 2)]] false false).run (fun _ => 0) .missing = (f, .ok r) ∧
    (oneScanRun [[("a", 2)], [("a", 2)]] false false).run (fun _ => 0) f = (f, .error .keyError) := by
  have hk : ∀ hy ∈ ([[("a", 2)], [("a", 2)]] : List Hypo), Dict.keys hy = ["a"] := by
    intro hy hyy
    simp only [List.mem_cons, List.not_mem_nil, or_false, or_self] at hyy
    subst hyy; rfl
  obtain ⟨f, r, h1⟩ := one_scan_ok _ hk (by simp [Raster.haveCompatiblePois, Dict.keys]) false false one_repeated
  exact ⟨f, r, h1, c72_repeated_refused _ _ _ (one_scan_usual _ hk false false) f r h1 _ rfl (by simp) rfl rfl⟩

/-- A run of `poi_scan` with the hypotheses of the file uses it, one with other hypotheses does not. -/
example (hs : List Hypo) (hne : hs.length ≠ 2) (hk : ∀ hy ∈ hs, Dict.keys hy = ["a"]) :
    ∃ f r r', (oneScanRun [[("a", 2)], [("a", 3)]] false false).run (fun _ => 0) .missing = (f, .ok r) ∧
    (oneScanRun [[("a", 3)], [("a", 2)]] false true).run (fun _ => 0) f = (f, .ok r') ∧
    (oneScanRun hs false false).run (fun _ => 0) f = (f, .error .keyError) := by
  obtain ⟨f, r, h1⟩ := one_scan_first false false
  have hk2 : ∀ hy ∈ ([[("a", 2)], [("a", 3)]] : List Hypo), Dict.keys hy = ["a"] := by
    intro hy hyy
    simp only [List.mem_cons, List.not_mem_nil, or_false] at hyy
    rcases hyy with rfl | rfl <;> rfl
  have hu := one_scan_usual _ hk2 false false
  obtain ⟨h2, s', h3⟩ := c72_first_run _ _ hu f r h1
  obtain ⟨K, hK, sv⟩ := hu.savable (x := .scan _) ⟨s', h3⟩
  have hnd : ∀ e ∈ r, (Dict.keys e.1).Nodup := fun e he => by rw [sv.keys e he]; exact hK
  have hmem : ∀ a, a ∈ r.map Prod.fst ↔ a ∈ ([[("a", 2)], [("a", 3)]] : List Hypo) := sv.mem
  have hlen : r.length = 2 := by
    have : (r.map Prod.fst).Perm [[("a", 2)], [("a", 3)]] :=
      (List.perm_ext_iff_of_nodup sv.nodup (by simp)).2 hmem
    simpa using this.length_eq
  have hcov : Covers r [[("a", 3)], [("a", 2)]] := by
    refine ⟨hlen, ?_⟩
    intro hy hyy
    have : hy ∈ r.map Prod.fst := by
      rw [hmem]
      simp only [List.mem_cons, List.not_mem_nil, or_false] at hyy ⊢
      exact hyy.symm
    obtain ⟨e, he, rfl⟩ := List.mem_map.1 this
    exact ⟨e, he, fun _ => rfl⟩
  obtain ⟨r', _, h4⟩ := (c72_with_file oneSetup.m f r h2 hnd (fun _ => 0)
    (oneScanRun [[("a", 3)], [("a", 2)]] false true) rfl _ rfl (by simp [Dict.keys]) rfl).1 hcov
  rw [if_neg (by simp [Raster.haveCompatiblePois, Dict.keys])] at h4
  refine ⟨f, r, r', h1, h4, (c72_with_file oneSetup.m f r h2 hnd (fun _ => 0)
    (oneScanRun hs false false) rfl _ rfl (fun hy hyy => by rw [hk hy hyy]; simp) rfl).2.1 ?_ rfl⟩
  rintro ⟨hl, _⟩
  exact hne (hl.symm.trans hlen)

example : (oneScanRun [[("a", 1), ("b", 1), ("c", 1)], [("a", 2), ("b", 1), ("c", 1)]] false false).run (fun _ => 0)
    .missing = (.missing, .error .valueError) :=
  c72_three_pois _ _ _ rfl (by simp) ["a", "b", "c"] (by
    intro hy hyy
    simp only [List.mem_cons, List.not_mem_nil, or_false] at hyy
    rcases hyy with rfl | rfl <;> rfl) (by simp)

end Verif.Props
