import Verif.Lemmas.Parabola
import Verif.Lemmas.CalcFast
import Verif.Props.Compose
/-! Helper lemmas: the profile likelihood ratio of a Gaussian model with one POI. -/
namespace Verif.Lim
open Verif.Spec Verif.Props

/-- The runs of the optimiser in `tmu`. -/
theorem tmu_runs {K : Type} [Field K] [LinearOrder K] (opt : Optim K) (hopt : Evaluates opt) (m : ParModel K)
    (pois : List (PoiRange K)) (s s' : OptiMin K) (ha : s.altMethod = none) (hb : s.rebound = 0)
    (env : FitEnv K) (init : Pars K) (hypo : Dict K) (out : TmuOut K)
    (ho : s.tmu opt m pois env init hypo = .ok (s', out)) :
    ∃ runH runF, Verif.tmu env m pois s.method (s.bounds.map Dict.values) init hypo runH runF = .ok out ∧
      (∀ pf bf fr, setPois m pois init (s.bounds.map Dict.values) (some hypo) false = .ok (pf, bf) →
        freeBounds bf = .ok fr → ∃ method, runF = opt env method pf fr) ∧
      (∀ pf bf ph bh fr, setPois m pois init (s.bounds.map Dict.values) (some hypo) false = .ok (pf, bf) →
        setPois m pois init (some bf.values) (some hypo) true = .ok (ph, bh) →
        freeBounds bh = .ok fr → ∃ method, runH = opt env method ph fr) := by
  rw [tmu_eq_attempt _ _ _ _ _ _ s ha hb] at ho
  obtain ⟨pf, bf, ph, bh, sh, rh, sf, rf, a1, a2, a3, a4, b1, b2, b3, b4, b5, _⟩ :=
    attempt_inv opt m pois env init hypo s s' out ho
  rw [minimizeD_congr opt hopt env m s.method pf bf s.minNll none s.minPars none] at a4
  unfold minimizeD at a3 a4
  obtain ⟨runH, g3, c3⟩ := bind_eq_ok.1 a3
  obtain ⟨runF, g4, c4⟩ := bind_eq_ok.1 a4
  refine ⟨runH, runF, ?_, ?_, ?_⟩
  · unfold Verif.tmu
    rw [a1, bind_ok]
    simp only
    rw [a2, bind_ok]
    simp only
    rw [c3, bind_ok]
    simp only
    rw [c4, bind_ok]
    simp only [b1, b2, b3, b4]
    rw [← b5]
    rfl
  · intro pf' bf' fr e1 e2
    rw [a1] at e1
    have := Except.ok.inj (ε := PyErr) e1
    simp only [Prod.mk.injEq] at this
    obtain ⟨rfl, rfl⟩ := this
    unfold optRun at g4
    simp only [e2, bind_ok, pure_ok] at g4
    exact ⟨_, (Except.ok.inj (ε := PyErr) g4).symm⟩
  · intro pf' bf' ph' bh' fr e1 e2 e3
    rw [a1] at e1
    have := Except.ok.inj (ε := PyErr) e1
    simp only [Prod.mk.injEq] at this
    obtain ⟨rfl, rfl⟩ := this
    rw [a2] at e2
    have := Except.ok.inj (ε := PyErr) e2
    simp only [Prod.mk.injEq] at this
    obtain ⟨rfl, rfl⟩ := this
    unfold optRun at g3
    simp only [e3, bind_ok, pure_ok] at g3
    exact ⟨_, (Except.ok.inj (ε := PyErr) g3).symm⟩

variable {P : Nat}

theorem par_get (m : Mdl 1 P) (u : ℝ) (nps : List ℝ) :
    Pars.get m.parModel (⟨[u], nps⟩ : Pars ℝ) (m.pois 0) = .ok u := by
  simp [Pars.get, Mdl.parModel, List.ofFn_succ]

theorem par_set (m : Mdl 1 P) (u v : ℝ) (nps : List ℝ) (b : Bool) :
    Pars.set m.parModel (⟨[u], nps⟩ : Pars ℝ) (m.pois 0) v b = .ok ⟨[v], nps⟩ := by
  simp [Pars.set, Mdl.parModel, List.ofFn_succ]

/-- `set_pois` for the free fit. -/
theorem set_free (m : Mdl 1 P) (lo hi w v : ℝ) (nps : List ℝ) :
    ∃ u, setPois m.parModel [⟨m.pois 0, some lo, some hi⟩] ⟨[w], nps⟩ none (some [(m.pois 0, v)]) false =
      .ok (⟨[u], nps⟩, [(m.pois 0, ⟨m.pois 0, some lo, some hi⟩)]) := by
  have e1 : setHypo m.parModel [(m.pois 0, v)] ⟨[w], nps⟩ = .ok ⟨[v], nps⟩ := by
    simp only [setHypo, par_set, bind_ok]
  have e2 : buildBounds [(⟨m.pois 0, some lo, some hi⟩ : ParBound ℝ)] none (some [(m.pois 0, v)]) false =
      .ok [(m.pois 0, ⟨m.pois 0, some lo, some hi⟩)] := rfl
  unfold setPois
  simp only [Option.getD_some]
  rw [e1, bind_ok, e2, bind_ok]
  simp only [Dict.values, List.map_cons, List.map_nil, clampInit, par_get, bind_ok]
  by_cases h : ParBound.testValue (⟨m.pois 0, some lo, some hi⟩ : ParBound ℝ) v = true
  · rw [if_pos h]
    exact ⟨v, rfl⟩
  · rw [if_neg h]
    simp only [ParBound.mid, bind_ok, par_set]
    exact ⟨_, rfl⟩

theorem set_fix (m : Mdl 1 P) (lo hi w v : ℝ) (nps : List ℝ) :
    setPois m.parModel [⟨m.pois 0, some lo, some hi⟩] ⟨[w], nps⟩
      (some (Dict.values [(m.pois 0, (⟨m.pois 0, some lo, some hi⟩ : ParBound ℝ))])) (some [(m.pois 0, v)]) true =
      .ok (⟨[v], nps⟩, [(m.pois 0, ⟨m.pois 0, some v, some v⟩)]) := by
  have e1 : setHypo m.parModel [(m.pois 0, v)] ⟨[w], nps⟩ = .ok ⟨[v], nps⟩ := by
    simp only [setHypo, par_set, bind_ok]
  have e2 : buildBounds [(⟨m.pois 0, some lo, some hi⟩ : ParBound ℝ)]
      (some (Dict.values [(m.pois 0, (⟨m.pois 0, some lo, some hi⟩ : ParBound ℝ))])) (some [(m.pois 0, v)]) true =
      .ok [(m.pois 0, ⟨m.pois 0, some v, some v⟩)] := by
    simp [buildBounds, argBounds, Dict.setAll, Dict.set, Dict.values]
  unfold setPois
  simp only [Option.getD_some]
  rw [e1, bind_ok, e2, bind_ok]
  simp only [Dict.values, List.map_cons, List.map_nil, clampInit, par_get, bind_ok]
  rw [if_pos (by simp [ParBound.testValue])]
  rfl

theorem free_fix (n : String) (v : ℝ) : freeBounds [(n, (⟨n, some v, some v⟩ : ParBound ℝ))] = .ok [] := by
  simp [freeBounds, Dict.values, ParBound.isFree]

theorem free_free (n : String) (lo hi : ℝ) (h : lo < hi) :
    freeBounds [(n, (⟨n, some lo, some hi⟩ : ParBound ℝ))] = .ok [(0, ⟨n, some lo, some hi⟩)] := by
  simp [freeBounds, Dict.values, ParBound.isFree, h]

/-- The profile likelihood ratio of a Gaussian model with one POI. -/
theorem tmu_plr {m : Mdl 1 P} {A : Mdl.Arrays} (hg : GaussianModel m A) {d : Mdl.DataV P}
    {best σ k lo hi : ℝ} (hp : Parabola m A d best σ k) (h1 : lo ≤ best) (h2 : best ≤ hi)
    (hlh : lo < hi) {floor : Option ℝ} {c : CalcSetup} (hc : CalculatorOf m lo hi c)
    (hopt : Evaluates c.opt)
    (hF : FindsMinima P c.opt (m.fitEnv A d 1 floor) ⟨m.pois 0, some lo, some hi⟩)
    {s s' : OptiMin ℝ} (ha : s.altMethod = none) (hb : s.rebound = 0) (hsb : s.bounds = none) {v : ℝ}
    {out : TmuOut ℝ}
    (ho : s.tmu c.opt c.m c.pois (m.fitEnv A d 1 floor) c.ref [(m.pois 0, v)] = .ok (s', out)) :
    out.tmu = plr v σ best ∧ out.hypoNll = k + ((v - best) / σ) ^ 2 / 2 ∧ out.freeNll = k := by
  obtain ⟨w, hw⟩ := hc.start
  obtain ⟨N0, h0⟩ := hg.ref
  obtain ⟨runH, runF, ht, hrF, hrH⟩ := tmu_runs c.opt hopt c.m c.pois s s' ha hb _ _ _ _ ho
  rw [hc.model, hc.range, hw, hsb, Option.map_none] at ht hrF hrH
  obtain ⟨u, hu⟩ := set_free m lo hi w v (List.replicate P 0)
  have hfx := set_fix m lo hi w v (List.replicate P 0)
  have hfree := free_free (m.pois 0) lo hi hlh
  have hnd : (List.ofFn m.pois).Nodup := by simp [List.ofFn_succ]
  obtain ⟨q1, q2, q3, _⟩ := c68_gaussian_exact_ratio m A d hg.sym hg.lin hg.cut hg.noLog hg.hsym hg.hpsd
    hg.noPoisson hg.constrained N0 h0 hnd floor [⟨m.pois 0, some lo, some hi⟩] (by simp [List.ofFn_succ])
    s.method none [(m.pois 0, v)] (by simp [List.ofFn_succ]) (by simp) (by
      intro n b lo' hi' he e1 e2
      simp only [effBound, lastFor, lastBound, Option.getD_none, List.filter_nil, List.getLast?_nil,
        Option.map_none] at he
      by_cases hn : m.pois 0 = n
      · simp only [List.filter_cons, hn, decide_true, if_true, List.filter_nil, List.getLast?_singleton,
          Option.some.injEq] at he
        rw [← he] at e1 e2
        simp only [Option.some.injEq] at e1 e2
        rw [← e1, ← e2]; exact hlh.le
      · simp [List.filter_cons, hn] at he)
    [w] rfl runH runF out ht (by
      intro pf bf ph bh e1 e2
      constructor
      · intro fr e3 _
        obtain ⟨method, e4⟩ := hrF pf bf fr e1 e3
        rw [hu] at e1
        have := Except.ok.inj (ε := PyErr) e1
        simp only [Prod.mk.injEq] at this
        obtain ⟨rfl, rfl⟩ := this
        rw [hfree] at e3
        have := Except.ok.inj (ε := PyErr) e3
        subst this
        rw [e4]
        exact hF method u
      · intro fr e3 e5
        rw [hu] at e1
        have := Except.ok.inj (ε := PyErr) e1
        simp only [Prod.mk.injEq] at this
        obtain ⟨rfl, rfl⟩ := this
        rw [hfx] at e2
        have := Except.ok.inj (ε := PyErr) e2
        simp only [Prod.mk.injEq] at this
        obtain ⟨rfl, rfl⟩ := this
        rw [free_fix] at e3
        exact absurd (Except.ok.inj (ε := PyErr) e3).symm e5)
  have e1 : nllsWhere m A d (PoisAllowed m [⟨m.pois 0, some lo, some hi⟩] [] [(m.pois 0, v)]) =
      nllsWhere m A d (fun y => y 0 = v) := by
    unfold nllsWhere
    congr 1
    funext z
    refine propext (exists_congr fun x => exists_congr fun θ => and_congr_left fun _ => ?_)
    constructor
    · intro h
      have := h 0 ⟨m.pois 0, some v, some v⟩ (by simp [effBound, lastFor])
      exact le_antisymm (this.2 v rfl) (this.1 v rfl)
    · intro h i b hb'
      have hi0 : i = 0 := Subsingleton.elim i 0
      subst hi0
      simp only [effBound, lastFor, List.filter_cons, decide_true, if_true, List.filter_nil,
        List.getLast?_singleton, Option.map_some, Option.some.injEq] at hb'
      rw [← hb', h]
      exact ⟨by intro lo' e; simp only [Option.some.injEq] at e; exact e.symm.le,
        by intro lo' e; simp only [Option.some.injEq] at e; exact e.le⟩
  have e2 : out.hypoNll = k + ((v - best) / σ) ^ 2 / 2 := by
    rw [Option.getD_none, e1] at q1
    exact q1.unique (hp v)
  have hallow : ∀ x : Fin 1 → ℝ, lo ≤ x 0 → x 0 ≤ hi → PoisAllowed m [⟨m.pois 0, some lo, some hi⟩] [] [] x := by
    intro x g1 g2 i b hb'
    have hi0 : i = 0 := Subsingleton.elim i 0
    subst hi0
    simp only [effBound, lastFor, lastBound, List.filter_nil, List.getLast?_nil, Option.map_none,
      List.filter_cons, decide_true, if_true, List.getLast?_singleton, Option.some.injEq] at hb'
    rw [← hb']
    exact ⟨by intro lo' e; simp only [Option.some.injEq] at e; rw [← e]; exact g1,
      by intro lo' e; simp only [Option.some.injEq] at e; rw [← e]; exact g2⟩
  have e3 : out.freeNll = k := by
    rw [Option.getD_none] at q2
    apply le_antisymm
    · obtain ⟨y, θ, hy0, hv⟩ := (hp best).1
      have : k + ((best - best) / σ) ^ 2 / 2 = k := by simp
      rw [this] at hv
      exact q2.2 ⟨y, θ, hallow y (by rw [hy0]; exact h1) (by rw [hy0]; exact h2), hv⟩
    · obtain ⟨y, θ, hy0, hv⟩ := q2.1
      have := (hp (y 0)).2 ⟨y, θ, rfl, hv⟩
      have h3 : 0 ≤ ((y 0 - best) / σ) ^ 2 / 2 := by positivity
      linarith
  refine ⟨?_, e2, e3⟩
  rw [q3, e2, e3, plr, max_eq_right]
  · ring
  · have : 0 ≤ ((v - best) / σ) ^ 2 := sq_nonneg _
    linarith

end Verif.Lim
