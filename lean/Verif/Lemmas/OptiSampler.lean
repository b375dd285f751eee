import Verif.Model.OptiSampler
import Verif.Lemmas.CalcFast
import Verif.Spec.Calc
/-! Helper lemmas about `OptiSampler`. -/
namespace Verif.OptiSampler
open Verif Spec

/-- What a successful call of the minimiser did. -/
theorem tmu_inv (c : CalcSetup) (cfg : Cfg) (env : SampEnv) (s s' : St) (f : Fits)
    (h : tmu c cfg env s = .ok (s', f)) :
    ∃ pf bf ph bh sh rh sf rf hp fp o,
      setPois c.m c.pois cfg.genHypo (s.min.bounds.map Dict.values) (some cfg.testHypo) false = .ok (pf, bf) ∧
      setPois c.m c.pois cfg.genHypo (some bf.values) (some cfg.testHypo) true = .ok (ph, bh) ∧
      minimizeD c.opt env.fit c.m { method := s.min.method, initPois := ph, bounds := bh } = .ok (sh, rh) ∧
      minimizeD c.opt env.fit c.m { method := s.min.method, initPois := pf, bounds := bf, minNll := s.min.minNll,
                                    minPars := s.min.minPars } = .ok (sf, rf) ∧
      lastPoint c.opt env.fit { method := s.min.method, initPois := ph, bounds := bh } = .ok hp ∧
      lastPoint c.opt env.fit { method := s.min.method, initPois := pf, bounds := bf, minNll := s.min.minNll,
                                minPars := s.min.minPars } = .ok fp ∧
      env.deltas hp = .ok f.hypoDeltas ∧ env.deltas fp = .ok f.freeDeltas ∧
      f.minPois = newMinPois rf sf s.minPois ∧ s'.minPois = f.minPois ∧ f.tmu = o.tmu ∧
      sh.minNll = some o.hypoNll ∧ sf.minNll = some o.freeNll ∧
      sh.minPars = some o.hypoPars ∧ sf.minPars = some o.freePars ∧
      s.min.attempt c.opt c.m c.pois env.fit cfg.genHypo cfg.testHypo = .ok (s'.min, o) := by
  unfold tmu at h
  obtain ⟨⟨pf, bf⟩, h1, h⟩ := bind_eq_ok.1 h
  dsimp only at h
  obtain ⟨⟨ph, bh⟩, h2, h⟩ := bind_eq_ok.1 h
  dsimp only at h
  obtain ⟨⟨sh, rh⟩, h3, h⟩ := bind_eq_ok.1 h
  dsimp only at h
  obtain ⟨hp, h4, h⟩ := bind_eq_ok.1 h
  obtain ⟨hd, h5, h⟩ := bind_eq_ok.1 h
  obtain ⟨⟨sf, rf⟩, h6, h⟩ := bind_eq_ok.1 h
  dsimp only at h
  obtain ⟨fp, h7, h⟩ := bind_eq_ok.1 h
  obtain ⟨fd, h8, h⟩ := bind_eq_ok.1 h
  cases e1 : sh.minNll with
  | none => rw [e1] at h; simp only [throw_error] at h; cases h
  | some a =>
  cases e2 : sf.minNll with
  | none => rw [e1, e2] at h; simp only [throw_error] at h; cases h
  | some b =>
  cases e3 : sh.minPars with
  | none => rw [e1, e2, e3] at h; simp only [throw_error] at h; cases h
  | some qh =>
  cases e4 : sf.minPars with
  | none => rw [e1, e2, e3, e4] at h; simp only [throw_error] at h; cases h
  | some qf =>
  rw [e1, e2, e3, e4] at h
  simp only [pure_ok, Except.ok.injEq, Prod.mk.injEq] at h
  obtain ⟨g1, g2⟩ := h
  refine ⟨pf, bf, ph, bh, sh, rh, sf, rf, hp, fp, ⟨tmuValue a b, a, b, qh, qf⟩, h1, h2, h3, h6, h4, h7,
    by rw [← g2]; exact h5, by rw [← g2]; exact h8, by rw [← g2], by rw [← g1, ← g2], by rw [← g2], e1, e2, e3, e4, ?_⟩
  unfold OptiMin.attempt
  simp only [h1, bind_ok, h2, h3, h6, e1, e2, e3, e4, pure_ok]
  rw [← g1]

theorem tmu_nonneg (c : CalcSetup) (cfg : Cfg) (env : SampEnv) (s s' : St) (f : Fits)
    (h : tmu c cfg env s = .ok (s', f)) : 0 ≤ f.tmu := by
  obtain ⟨_, _, _, _, _, _, _, _, _, _, o, -, -, -, -, -, -, -, -, -, -, ht, -, -, -, -, ha⟩ := tmu_inv c cfg env s s' f h
  obtain ⟨_, _, _, _, _, _, _, _, _, _, _, _, _, _, _, _, he, _⟩ := attempt_inv _ _ _ _ _ _ _ _ _ ha
  rw [ht, he]
  unfold tmuValue
  dsimp only
  split_ifs with hc
  · exact le_refl _
  · exact not_lt.1 hc

/-- A successful optimisation leaves its result in `min_pois`. -/
theorem minimizeD_success (opt : Optim ℝ) (hs : ∀ env method p fr, (opt env method p fr).success = true)
    (env : FitEnv ℝ) (m : ParModel ℝ) (st st' : MinSt ℝ) (r : MinRet ℝ) (h : minimizeD opt env m st = .ok (st', r)) :
    ∃ v, r = .nll v := by
  unfold minimizeD at h
  obtain ⟨run, h1, h⟩ := bind_eq_ok.1 h
  unfold optRun at h1
  obtain ⟨free, h2, h1⟩ := bind_eq_ok.1 h1
  have hr := Except.ok.inj (ε := PyErr) h1
  have hsu : run.success = true := by rw [← hr]; exact hs _ _ _ _
  unfold minimize at h
  obtain ⟨fr, h3, h⟩ := bind_eq_ok.1 h
  obtain ⟨x0, h4, h⟩ := bind_eq_ok.1 h
  by_cases hc : fr.length = 0 ∧ st.method ≠ ""
  · rw [if_pos hc] at h
    obtain ⟨vq, h5, h⟩ := bind_eq_ok.1 h
    have := Except.ok.inj (ε := PyErr) h
    simp only [Prod.mk.injEq] at this
    exact ⟨_, this.2.symm⟩
  · rw [if_neg hc] at h
    simp only [hsu, if_true] at h
    split_ifs at h
    all_goals first
      | (cases h; done)
      | (obtain ⟨es, h6, h⟩ := bind_eq_ok.1 h
         have := Except.ok.inj (ε := PyErr) h
         simp only [Prod.mk.injEq] at this
         exact ⟨_, this.2.symm⟩)

/-- Two samplers whose minimisers a call cannot tell apart give the same. -/
theorem tmu_alike (c : CalcSetup) (cfg : Cfg) (env : SampEnv) (s s' : St)
    (hopt : Evaluates c.opt) (hs : ∀ env method p fr, (c.opt env method p fr).success = true)
    (h : Alike c.pois s.min s'.min) :
    (tmu c cfg env s).map Prod.snd = (tmu c cfg env s').map Prod.snd := by
  obtain ⟨h1, _, _, _, _, h2⟩ := h
  unfold tmu
  rw [setPois_congr c.m c.pois cfg.genHypo _ _ (some cfg.testHypo) false h2, h1]
  cases setPois c.m c.pois cfg.genHypo (s'.min.bounds.map Dict.values) (some cfg.testHypo) false with
  | error e => rfl
  | ok x =>
    simp only [bind_ok]
    cases setPois c.m c.pois cfg.genHypo (some x.2.values) (some cfg.testHypo) true with
    | error e => rfl
    | ok y =>
      simp only [bind_ok]
      cases minimizeD c.opt env.fit c.m { method := s'.min.method, initPois := y.1, bounds := y.2 } with
      | error e => rfl
      | ok z =>
        simp only [bind_ok]
        cases lastPoint c.opt env.fit { method := s'.min.method, initPois := y.1, bounds := y.2 } with
        | error e => rfl
        | ok hp =>
        simp only [bind_ok]
        cases env.deltas hp with
        | error e => rfl
        | ok hd =>
        simp only [bind_ok]
        rw [minimizeD_congr c.opt hopt env.fit c.m s'.min.method x.1 x.2 s.min.minNll s'.min.minNll s.min.minPars
          s'.min.minPars]
        have el : lastPoint c.opt env.fit { method := s'.min.method, initPois := x.1, bounds := x.2, minNll := s.min.minNll, minPars := s.min.minPars } = lastPoint c.opt env.fit { method := s'.min.method, initPois := x.1, bounds := x.2, minNll := s'.min.minNll, minPars := s'.min.minPars } := rfl
        rw [el]
        cases hw : minimizeD c.opt env.fit c.m (MinSt.mk s'.min.method x.1 x.2 s'.min.minNll s'.min.minPars []) with
        | error e => rfl
        | ok w =>
          obtain ⟨v, hv⟩ := minimizeD_success c.opt hs _ _ _ w.1 w.2 hw
          simp only [bind_ok]
          cases lastPoint c.opt env.fit { method := s'.min.method, initPois := x.1, bounds := x.2, minNll := s'.min.minNll, minPars := s'.min.minPars } with
          | error e => rfl
          | ok fp =>
          simp only [bind_ok]
          cases env.deltas fp with
          | error e => rfl
          | ok fd =>
          simp only [bind_ok, hv, newMinPois]
          cases z.1.minNll <;> cases w.1.minNll <;> cases z.1.minPars <;> cases w.1.minPars <;> rfl

theorem compute_alike (c : CalcSetup) (cfg : Cfg) (env : SampEnv) (s s' : St)
    (hopt : Evaluates c.opt) (hs : ∀ env method p fr, (c.opt env method p fr).success = true)
    (h : Alike c.pois s.min s'.min) :
    outcome (compute c cfg env s) = outcome (compute c cfg env s') := by
  have e := tmu_alike c cfg env s s' hopt hs h
  unfold compute outcome
  cases h1 : tmu c cfg env s with
  | error a =>
    cases h2 : tmu c cfg env s' with
    | error b => rw [h1, h2] at e; simp only [Except.map, Except.error.injEq] at e; rw [e]; try rfl
    | ok y => rw [h1, h2] at e; simp [Except.map] at e
  | ok x =>
    cases h2 : tmu c cfg env s' with
    | error b => rw [h1, h2] at e; simp [Except.map] at e
    | ok y =>
      rw [h1, h2] at e
      simp only [Except.map, Except.ok.injEq] at e
      simp only [bind_ok, e]
      by_cases hc : y.2.tmu < 0
      · rw [if_pos hc, if_pos hc]; rfl
      · rw [if_neg hc, if_neg hc]
        cases passes c.m y.2 cfg.bounds with
        | error a => rfl
        | ok b =>
          simp only [bind_ok]
          cases b with
          | false => rfl
          | true =>
            simp only [if_true]
            cases pvOf cfg y.2 with
            | error a => rfl
            | ok pv => rfl

/-- What a successful call of `compute` did. -/
theorem compute_inv (c : CalcSetup) (cfg : Cfg) (env : SampEnv) (s s' : St) (r : Option ℝ)
    (h : compute c cfg env s = .ok (s', r)) :
    ∃ f, tmu c cfg env s = .ok (s', f) ∧ ((passes c.m f cfg.bounds = .ok false ∧ r = none) ∨
      (passes c.m f cfg.bounds = .ok true ∧ ∃ pv, pvOf cfg f = .ok pv ∧ r = some pv)) := by
  unfold compute at h
  obtain ⟨⟨s1, f⟩, h1, h⟩ := bind_eq_ok.1 h
  dsimp only at h
  have h0 := tmu_nonneg c cfg env s s1 f h1
  rw [if_neg (not_lt.2 h0)] at h
  obtain ⟨b, h2, h⟩ := bind_eq_ok.1 h
  cases b with
  | false =>
    simp only [Bool.false_eq_true, if_false, pure_ok, Except.ok.injEq, Prod.mk.injEq] at h
    obtain ⟨rfl, rfl⟩ := h
    exact ⟨f, h1, Or.inl ⟨h2, rfl⟩⟩
  | true =>
    rw [if_pos rfl] at h
    obtain ⟨pv, h3, h⟩ := bind_eq_ok.1 h
    have := Except.ok.inj (ε := PyErr) h
    simp only [Prod.mk.injEq] at this
    obtain ⟨rfl, rfl⟩ := this
    exact ⟨f, h1, Or.inr ⟨h2, pv, h3, rfl⟩⟩

theorem compute_keeps (c : CalcSetup) (cfg : Cfg) (env : SampEnv) (s s' : St) (r : Option ℝ)
    (hr : Reusable c.pois s.min) (h : compute c cfg env s = .ok (s', r)) :
    Alike c.pois s.min s'.min ∧ Reusable c.pois s'.min := by
  obtain ⟨f, h1, -⟩ := compute_inv c cfg env s s' r h
  obtain ⟨_, _, _, _, _, _, _, _, _, _, o, -, -, -, -, -, -, -, -, -, -, -, -, -, -, -, ha⟩ := tmu_inv c cfg env s s' f h1
  rw [← tmu_eq_attempt _ _ _ _ _ _ s.min hr.1 hr.2.1] at ha
  exact tmu_keeps c.opt c.m c.pois env.fit _ _ s.min s'.min o hr ha

theorem stateAt_alike (c : CalcSetup) (cfg : Cfg) (dat : ℕ → SampEnv) (s0 s : St) (hr : Reusable c.pois s0.min) (i : ℕ)
    (h : stateAt c cfg dat s0 i = .ok s) : Alike c.pois s0.min s.min ∧ Reusable c.pois s.min := by
  induction i generalizing s with
  | zero =>
    have := Except.ok.inj (ε := PyErr) h
    subst this
    exact ⟨⟨rfl, hr.1, hr.1, hr.2.1, hr.2.1, rfl⟩, hr⟩
  | succ i ih =>
    unfold stateAt at h
    obtain ⟨s1, h1, h⟩ := bind_eq_ok.1 h
    obtain ⟨⟨s2, r⟩, h2, h⟩ := bind_eq_ok.1 h
    have := Except.ok.inj (ε := PyErr) h
    subst this
    obtain ⟨a1, r1⟩ := ih s1 h1
    obtain ⟨a2, r2⟩ := compute_keeps c cfg (dat i) s1 s2 r r1 h2
    exact ⟨a1.trans a2, r2⟩

/-! ### Generation looks at the outcomes up to the first exception -/

theorem toy_agree (r r' : ℕ → Except PyErr (Option ℝ)) (mt : ℕ)
    (h : ∀ i, (∀ j < i, ∃ v, r' j = .ok v) → r i = r' i) (fuel i n : ℕ) (hi : ∀ j < i, ∃ v, r' j = .ok v) :
    Sampler.toy r mt fuel i n = Sampler.toy r' mt fuel i n ∧
      ∀ v i', Sampler.toy r' mt fuel i n = some (.ok (v, i')) → ∀ j < i', ∃ v, r' j = .ok v := by
  induction fuel generalizing i n with
  | zero => exact ⟨rfl, by intro v i' h; cases h⟩
  | succ fuel ih =>
    unfold Sampler.toy
    rw [h i hi]
    cases hr : r' i with
    | error e => exact ⟨rfl, by intro v i' h; simp at h⟩
    | ok o =>
      have hi' : ∀ j < i + 1, ∃ v, r' j = .ok v := by
        intro j hj
        rcases Nat.lt_succ_iff_lt_or_eq.1 hj with h1 | h1
        · exact hi j h1
        · exact ⟨o, h1 ▸ hr⟩
      cases o with
      | some v =>
        refine ⟨rfl, ?_⟩
        intro w i' hw
        simp only [Option.some.injEq, Except.ok.injEq, Prod.mk.injEq] at hw
        rw [← hw.2]; exact hi'
      | none =>
        simp only [ite_self]
        exact ih (i + 1) (n + 1) hi'

theorem toys_agree (r r' : ℕ → Except PyErr (Option ℝ)) (mt fuel : ℕ)
    (h : ∀ i, (∀ j < i, ∃ v, r' j = .ok v) → r i = r' i) (todo k i : ℕ) (l : List ℝ)
    (hi : ∀ j < i, ∃ v, r' j = .ok v) :
    Sampler.toys r mt fuel todo k i l = Sampler.toys r' mt fuel todo k i l := by
  induction todo generalizing k i l with
  | zero => rfl
  | succ todo ih =>
    unfold Sampler.toys
    obtain ⟨e1, e2⟩ := toy_agree r r' mt h fuel i 0 hi
    rw [e1]
    cases ht : Sampler.toy r' mt fuel i 0 with
    | none => rfl
    | some x =>
      cases x with
      | error e => rfl
      | ok y =>
        obtain ⟨v, i'⟩ := y
        exact ih (k + 1) i' _ (e2 v i' ht)

theorem generate_agree (r r' : ℕ → Except PyErr (Option ℝ)) (mt ntoys fuel : ℕ)
    (h : ∀ i, (∀ j < i, ∃ v, r' j = .ok v) → r i = r' i) :
    Sampler.generate r mt ntoys fuel = Sampler.generate r' mt ntoys fuel :=
  toys_agree r r' mt fuel h _ _ _ _ (by intro j hj; omega)

end Verif.OptiSampler

namespace Verif.OptiSampler
open Verif Spec

theorem forall₂_getLast {α β : Type} {R : α → β → Prop} {l : List α} {l' : List β} (h : List.Forall₂ R l l') {x : α}
    (hl : l.getLast? = some x) : ∃ y, l'.getLast? = some y ∧ R x y := by
  induction h with
  | nil => simp at hl
  | @cons a b l l' hab hf ih =>
    cases hf with
    | nil =>
      simp only [List.getLast?_singleton, Option.some.injEq] at hl
      subst hl
      exact ⟨b, rfl, hab⟩
    | cons h1 h2 =>
      rw [List.getLast?_cons_cons] at hl
      obtain ⟨y, hy1, hy2⟩ := ih hl
      exact ⟨y, by rw [List.getLast?_cons_cons]; exact hy1, hy2⟩

theorem updateHypo_nps (l : List (Nat × ℝ)) (p q : Pars ℝ) (h : updateHypo l p = .ok q) : q.nps = p.nps := by
  induction l generalizing p with
  | nil => exact congrArg _ (Except.ok.inj (ε := PyErr) h).symm
  | cons a l ih =>
    obtain ⟨i, v⟩ := a
    unfold updateHypo at h
    split_ifs at h
    exact (ih { p with pois := p.pois.set i v } h).trans rfl

/-- The parameters left by a fit are the profiled ones of the last point it looked at. -/
theorem lastPoint_spec (opt : Optim ℝ) (env : FitEnv ℝ) (m : ParModel ℝ) (st st' : MinSt ℝ) (r : MinRet ℝ) (p q : Pars ℝ)
    (h : minimizeD opt env m st = .ok (st', r)) (hp : lastPoint opt env st = .ok p) (hq : st'.minPars = some q) :
    p.nps = st.initPois.nps ∧ env.profile p = .ok q := by
  unfold minimizeD at h
  obtain ⟨run, h1, h2⟩ := bind_eq_ok.1 h
  obtain ⟨fr, hfr, hcase⟩ := minimize_inv env m st st' run r h2
  unfold lastPoint at hp
  rw [hfr, bind_ok] at hp
  rcases hcase with ⟨rfl, hm, v, q', hpr, -, hq', -⟩ | ⟨hne, es, hes, hq', -⟩
  · rw [if_pos ⟨rfl, hm⟩] at hp
    have := Except.ok.inj (ε := PyErr) hp
    subst this
    rw [hq] at hq'
    cases hq'
    exact ⟨rfl, (profileAt_inv env _ _ _ hpr).1⟩
  · rw [if_neg (fun hc => hne (List.length_eq_zero_iff.1 hc.1)), h1, bind_ok] at hp
    cases hl : run.evals.getLast? with
    | none => rw [hl] at hp; cases hp
    | some x =>
      rw [hl] at hp
      dsimp only at hp
      refine ⟨updateHypo_nps _ _ _ hp, ?_⟩
      have hx := forall₂_getLast (mapM_ok_iff.1 hes) hl
      obtain ⟨⟨v, q'⟩, hy1, hy2⟩ := hx
      rw [hy1] at hq'
      simp only [Option.map_some, Option.some_or] at hq'
      rw [hq] at hq'
      cases hq'
      obtain ⟨p', hp', hq2, -⟩ := evalAt_inv env st.initPois fr x v q hy2
      rw [hp] at hp'
      cases hp'
      exact hq2

theorem profileNps_succ {n P : Nat} (m : Mdl n P) (A : Mdl.Arrays) (x : Fin n → ℝ) (d : Mdl.DataV P) (k : ℕ)
    (θ : Fin P → ℝ) : m.profileNps A x d (k + 1) θ = (do m.profile A x (← m.profileNps A x d k θ) d) := by
  induction k generalizing θ with
  | zero =>
    simp only [Mdl.profileNps, bind_ok]
    cases m.profile A x θ d <;> rfl
  | succ k ih =>
    rw [Mdl.profileNps]
    conv_rhs => rw [Mdl.profileNps]
    cases m.profile A x θ d with
    | error e => rfl
    | ok θ' =>
      simp only [bind_ok]
      exact ih θ'

theorem lastDeltas_spec {n P : Nat} (m : Mdl n P) (A : Mdl.Arrays) (x : Fin n → ℝ) (d : Mdl.DataV P) (k : ℕ)
    (θ θ2 : Fin P → ℝ) (o : Option (Fin P → ℝ)) (h : m.lastDeltas A x d (k + 1) θ = .ok o)
    (h2 : m.profileNps A x d (k + 1) θ = .ok θ2) :
    ∃ θ1, m.profileNps A x d k θ = .ok θ1 ∧ o = some fun a => θ1 a - θ2 a := by
  induction k generalizing θ with
  | zero =>
    rw [Mdl.lastDeltas] at h
    rw [Mdl.profileNps] at h2
    obtain ⟨θ', h3, h4⟩ := bind_eq_ok.1 h
    rw [h3, bind_ok, Mdl.profileNps] at h2
    cases Except.ok.inj (ε := PyErr) h2
    exact ⟨θ, rfl, (Except.ok.inj (ε := PyErr) h4).symm⟩
  | succ k ih =>
    rw [Mdl.lastDeltas] at h
    rw [Mdl.profileNps] at h2
    obtain ⟨θ', h3, h4⟩ := bind_eq_ok.1 h
    rw [h3, bind_ok] at h2
    obtain ⟨θ1, h5, h6⟩ := ih θ' h4 h2
    exact ⟨θ1, by rw [Mdl.profileNps, h3, bind_ok, h5], h6⟩

end Verif.OptiSampler
