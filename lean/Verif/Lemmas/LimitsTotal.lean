import Verif.Props.Limits
import Verif.Props.CalcTmu
/-! Helper lemmas: the computations for a Gaussian model with one POI succeed. -/
namespace Verif.Lim
open Verif.Spec Verif.Props
variable {P : Nat}

theorem replicate_ofFn (P : Nat) : List.replicate P (0 : ℝ) = List.ofFn (0 : Fin P → ℝ) := by
  rw [← List.ofFn_const]; rfl

/-- The objective has a value at each point. -/
theorem env_total {m : Mdl 1 P} {A : Mdl.Arrays} (hg : GaussianModel m A) (ha : AffineYields m A)
    (d : Mdl.DataV P) (floor : Option ℝ) (x : ℝ) :
    ∃ v, ∃ θ : Fin P → ℝ, profileAt (m.fitEnv A d 1 floor) ⟨[x], List.replicate P 0⟩ =
      .ok (v, ⟨[x], List.ofFn θ⟩) ∧ m.nll A (fun _ => x) θ d = .ok (.fin v) ∧
      ∀ θ' v', m.nll A (fun _ => x) θ' d = .ok (.fin v') → v ≤ v' := by
  obtain ⟨N0, h0⟩ := hg.ref
  obtain ⟨a, s, c, hy, _⟩ := ha
  obtain ⟨θ1, v1, e1, e2, _, e4⟩ := Mdl.gauss_min hg.sym hg.lin hg.cut hg.noLog hg.hsym hg.hpsd hg.noPoisson
    hg.constrained h0 (nll_gF hg hy h0 d x 0)
  refine ⟨v1, θ1, ?_, e2, e4⟩
  have hx : (fun i : Fin 1 => ([x] : List ℝ).getD i 0) = fun _ => x := by
    funext i
    have : i = 0 := Subsingleton.elim i 0
    subst this; rfl
  unfold profileAt Mdl.fitEnv
  rw [replicate_ofFn]
  simp only [List.length_singleton, List.length_ofFn, and_self, if_true, Mdl.getD_ofFn, hx, e1, bind_ok, pure_ok,
    Mdl.nll_floor_gauss A hg.noPoisson]
  rw [show m.nll A (fun _ => x) θ1 d true none = .ok (.fin v1) from e2]
  rfl

theorem env_value {m : Mdl 1 P} {A : Mdl.Arrays} (hg : GaussianModel m A) (ha : AffineYields m A)
    {d : Mdl.DataV P} {best σ k : ℝ} (hp : Parabola m A d best σ k) (floor : Option ℝ) (x : ℝ) :
    ∃ θ : Fin P → ℝ, profileAt (m.fitEnv A d 1 floor) ⟨[x], List.replicate P 0⟩ =
      .ok (k + ((x - best) / σ) ^ 2 / 2, ⟨[x], List.ofFn θ⟩) := by
  obtain ⟨v, θ, e1, e2, e3⟩ := env_total hg ha d floor x
  refine ⟨θ, ?_⟩
  have : v = k + ((x - best) / σ) ^ 2 / 2 := by
    apply le_antisymm
    · obtain ⟨y, θ', hy0, hv⟩ := (hp x).1
      have : y = fun _ => x := by funext i; rw [← hy0, Subsingleton.elim i 0]
      subst this
      exact e3 θ' _ hv
    · exact (hp x).2 ⟨fun _ => x, θ, rfl, e2⟩
  rw [← this]; exact e1

theorem evalAt_one (env : FitEnv ℝ) (n : String) (lo hi u x : ℝ) (nps : List ℝ) :
    evalAt env ⟨[u], nps⟩ [(0, ⟨n, some lo, some hi⟩)] [x] = profileAt env ⟨[x], nps⟩ := by
  simp [evalAt, updateHypo]

theorem known_ne {s : String} (h : KnownMethod s) : s ≠ "" := by
  rintro rfl
  simp [KnownMethod] at h

theorem mapM_total {α β : Type} {f : α → Except PyErr β} {l : List α} (h : ∀ a ∈ l, ∃ b, f a = .ok b) :
    ∃ r, l.mapM f = .ok r := by
  induction l with
  | nil => exact ⟨[], rfl⟩
  | cons a l ih =>
    obtain ⟨b, hb⟩ := h a (by simp)
    obtain ⟨r, hr⟩ := ih fun a ha => h a (by simp [ha])
    exact ⟨b :: r, by rw [List.mapM_cons, hb, bind_ok, hr]; rfl⟩

theorem getLast_mapM {α β : Type} (f : α → Except PyErr β) (l : List α) (ys : List β)
    (h : l.mapM f = .ok ys) (x : α) (hx : l.getLast? = some x) :
    ∃ y, f x = .ok y ∧ ys.getLast? = some y := by
  have h2 := mapM_ok_iff.1 h
  clear h
  induction h2 with
  | nil => simp at hx
  | cons h1 h3 ih =>
    cases h3 with
    | nil => 
      simp only [List.getLast?_singleton, Option.some.injEq] at hx
      subst hx
      exact ⟨_, h1, rfl⟩
    | cons h4 h5 =>
      rw [List.getLast?_cons_cons] at hx ⊢
      exact ih hx

/-- The fit of the POI succeeds, and finds the best-fit value of the parabola. -/
theorem free_fit {m : Mdl 1 P} {A : Mdl.Arrays} (hg : GaussianModel m A) (ha : AffineYields m A)
    {d : Mdl.DataV P} {best σ k lo hi : ℝ} (hσ : 0 < σ) (hp : Parabola m A d best σ k) (h1 : lo ≤ best)
    (h2 : best ≤ hi) (hlh : lo < hi) {floor : Option ℝ} {opt : Optim ℝ} (hend : EndsAtResult opt)
    (hF : FindsMinima P opt (m.fitEnv A d 1 floor) ⟨m.pois 0, some lo, some hi⟩)
    {method : String} (hm : KnownMethod method) (u : ℝ) (v0 : Option ℝ) (q0 : Option (Pars ℝ)) :
    ∃ sf, ∃ θ : Fin P → ℝ, minimizeD opt (m.fitEnv A d 1 floor) m.parModel
        { method := method, initPois := ⟨[u], List.replicate P 0⟩,
          bounds := [(m.pois 0, ⟨m.pois 0, some lo, some hi⟩)], minNll := v0, minPars := q0 } =
      .ok (sf, .nll k) ∧ sf.minNll = some k ∧ sf.minPars = some ⟨[best], List.ofFn θ⟩ ∧ sf.method = method := by
  have hfree := free_free (m.pois 0) lo hi hlh
  obtain ⟨hdim, hlast⟩ := hend (m.fitEnv A d 1 floor) method ⟨[u], List.replicate P 0⟩
    [(0, ⟨m.pois 0, some lo, some hi⟩)]
  obtain ⟨q1, q2, ⟨q, q3⟩, q4⟩ := hF method u
  generalize hrun : opt (m.fitEnv A d 1 floor) method ⟨[u], List.replicate P 0⟩
    [(0, ⟨m.pois 0, some lo, some hi⟩)] = run at *
  have hx1 : ∃ x, run.x = [x] := by
    have := q2.length_eq
    match hx : run.x with
    | [x] => exact ⟨x, rfl⟩
    | [] => rw [hx] at this; simp at this
    | _ :: _ :: _ => rw [hx] at this; simp at this
  obtain ⟨x, hx⟩ := hx1
  obtain ⟨es, hes⟩ := mapM_total (f := fun y => evalAt (m.fitEnv A d 1 floor) ⟨[u], List.replicate P 0⟩
    [(0, ⟨m.pois 0, some lo, some hi⟩)] y) (l := run.evals) (by
      intro y hy
      have hl := hdim y hy
      match y, hl with
      | [z], _ =>
        obtain ⟨θ', e'⟩ := env_value hg ha hp floor z
        exact ⟨_, by rw [evalAt_one]; exact e'⟩)
  obtain ⟨e, he1, he2⟩ := getLast_mapM _ _ _ hes _ hlast
  obtain ⟨θx, ex⟩ := env_value hg ha hp floor x
  rw [hx, evalAt_one, ex] at he1 q3
  have ee := Except.ok.inj (ε := PyErr) he1
  -- the reported point is the best-fit value
  have hxb : x = best := by
    have hfn := congrArg Prod.fst (Except.ok.inj (ε := PyErr) q3)
    simp only at hfn
    obtain ⟨θb, eb⟩ := env_value hg ha hp floor best
    have i3 := q4 [best] _ ⟨[best], List.ofFn θb⟩ (by
      refine List.Forall₂.cons ?_ List.Forall₂.nil
      exact ⟨by intro l hl; simp only [Option.some.injEq] at hl; rw [← hl]; exact h1,
        by intro l hl; simp only [Option.some.injEq] at hl; rw [← hl]; exact h2⟩) (by rw [evalAt_one]; exact eb)
    rw [← hfn] at i3
    have i4 : ((x - best) / σ) ^ 2 ≤ 0 := by
      have : ((best - best) / σ) ^ 2 = 0 := by simp
      linarith
    have i5 : (x - best) / σ = 0 := by nlinarith [sq_nonneg ((x - best) / σ)]
    have := (div_eq_zero_iff.1 i5).resolve_right hσ.ne'
    linarith
  subst hxb
  unfold minimizeD optRun minimize
  simp only [hfree, bind_ok, pure_ok, List.length_singleton, lt_self_iff_false, false_and, if_false, hrun,
    List.mapM_cons, List.mapM_nil, par_get, gt_iff_lt, one_ne_zero]
  rw [if_pos (show method ∈ ["scalar", "CG", "L-BFGS-B"] from hm)]
  simp only [hes, bind_ok, q1, if_true, he2, Option.map_some, Option.some_or]
  have hfn : run.fn = k := by
    have := congrArg Prod.fst (Except.ok.inj (ε := PyErr) q3)
    simpa using this.symm
  exact ⟨_, θx, by rw [hfn], rfl, by rw [← ee], rfl⟩

/-- `tmu` succeeds, and the best-fit value it stores is the one of the parabola. -/
theorem tmu_total {m : Mdl 1 P} {A : Mdl.Arrays} (hg : GaussianModel m A) (ha : AffineYields m A)
    {d : Mdl.DataV P} {best σ k lo hi : ℝ} (hσ : 0 < σ) (hp : Parabola m A d best σ k) (h1 : lo ≤ best)
    (h2 : best ≤ hi) (hlh : lo < hi) {floor : Option ℝ} {c : CalcSetup} (hc : CalculatorOf m lo hi c)
    (hopt : Evaluates c.opt) (hend : EndsAtResult c.opt)
    (hF : FindsMinima P c.opt (m.fitEnv A d 1 floor) ⟨m.pois 0, some lo, some hi⟩)
    {s : OptiMin ℝ} (ha' : s.altMethod = none) (hb : s.rebound = 0) (hsb : s.bounds = none)
    (hm : KnownMethod s.method) (v : ℝ) :
    ∃ s' out, s.tmu c.opt c.m c.pois (m.fitEnv A d 1 floor) c.ref [(m.pois 0, v)] = .ok (s', out) ∧
      (∃ θ : Fin P → ℝ, out.hypoPars = ⟨[v], List.ofFn θ⟩) ∧
      (∃ θ : Fin P → ℝ, out.freePars = ⟨[best], List.ofFn θ⟩) := by
  obtain ⟨w, hw⟩ := hc.start
  obtain ⟨u, hu⟩ := set_free m lo hi w v (List.replicate P 0)
  have hfx := set_fix m lo hi w v (List.replicate P 0)
  obtain ⟨θh, eh⟩ := env_value hg ha hp floor v
  -- the fit at the hypothesis
  have fit1 : ∃ sh rh, minimizeD c.opt (m.fitEnv A d 1 floor) m.parModel
      { method := s.method, initPois := ⟨[v], List.replicate P 0⟩,
        bounds := [(m.pois 0, ⟨m.pois 0, some v, some v⟩)] } = .ok (sh, rh) ∧
      sh.minNll = some (k + ((v - best) / σ) ^ 2 / 2) ∧ sh.minPars = some ⟨[v], List.ofFn θh⟩ := by
    unfold minimizeD optRun minimize
    simp only [free_fix, bind_ok, pure_ok, List.mapM_nil, List.length_nil]
    rw [if_pos ⟨trivial, known_ne hm⟩]
    simp only [eh, bind_ok]
    exact ⟨_, _, rfl, rfl, rfl⟩
  obtain ⟨sh, rh, f1, f2, f3⟩ := fit1
  obtain ⟨sf, θf, g1, g2, g3, _⟩ := free_fit hg ha hσ hp h1 h2 hlh hend hF hm u s.minNll s.minPars
  rw [tmu_eq_attempt _ _ _ _ _ _ s ha' hb]
  unfold OptiMin.attempt
  rw [hc.model, hc.range, hw, hsb, Option.map_none, hu, bind_ok]
  simp only
  rw [hfx, bind_ok]
  simp only
  rw [f1, bind_ok]
  simp only
  rw [g1, bind_ok]
  simp only [f2, f3, g2, g3]
  exact ⟨_, _, rfl, ⟨θh, rfl⟩, ⟨θf, rfl⟩⟩

theorem get_np (m : Mdl 1 P) (x : ℝ) (θ : Fin P → ℝ) (np : NP ℝ) (hnp : np ∈ List.ofFn m.nps) :
    ∃ v, Pars.get m.parModel (⟨[x], List.ofFn θ⟩ : Pars ℝ) np.name = .ok v := by
  unfold Pars.get
  by_cases h1 : np.name ∈ m.parModel.pois
  · have : np.name = m.pois 0 := by simpa [Mdl.parModel, List.ofFn_succ] using h1
    rw [this]
    exact ⟨x, par_get m x _⟩
  · rw [if_neg h1]
    have h2 : np.name ∈ m.parModel.npNames := List.mem_map.2 ⟨np, hnp, rfl⟩
    rw [if_pos h2]
    have h3 := List.idxOf_lt_length_iff.2 h2
    have h4 : m.parModel.npNames.length = P := by simp [ParModel.npNames, Mdl.parModel]
    rw [h4] at h3
    rw [List.getElem?_eq_getElem (by simpa using h3)]
    exact ⟨_, rfl⟩

theorem fillNps_total (m : Mdl 1 P) (x : ℝ) (θ : Fin P → ℝ) (l : List (NP ℝ)) (hl : ∀ np ∈ l, np ∈ List.ofFn m.nps)
    (hn : ∀ np ∈ l, np.name ≠ m.pois 0) (d : Dict FitPar) :
    ∃ d', FitResult.fillNps m.parModel ⟨[x], List.ofFn θ⟩ l d = .ok d' ∧
      Dict.get? d' (m.pois 0) = Dict.get? d (m.pois 0) := by
  induction l generalizing d with
  | nil => exact ⟨d, rfl, rfl⟩
  | cons np l ih =>
    obtain ⟨v, hv⟩ := get_np m x θ np (hl np (by simp))
    simp only [FitResult.fillNps, hv, bind_ok]
    obtain ⟨d', h1, h2⟩ := ih (fun a ha => hl a (by simp [ha])) (fun a ha => hn a (by simp [ha]))
      (Dict.set d np.name (.new np.name (some (np.unscaledValue v))))
    exact ⟨d', h1, by rw [h2, Dict.get?_set_ne _ _ (hn np (by simp))]⟩

theorem init_total (m : Mdl 1 P) (hname : ∀ p, (m.nps p).name ≠ m.pois 0) (x : ℝ) (θ : Fin P → ℝ) (v : ℝ) :
    ∃ f, FitResult.init m.parModel (some ⟨[x], List.ofFn θ⟩) (some v) none = .ok f ∧
      Dict.get? f.fitpars (m.pois 0) = some (.new (m.pois 0) (some x)) := by
  obtain ⟨d', h1, h2⟩ := fillNps_total m x θ (List.ofFn m.nps) (fun _ h => h) (by
    intro np hnp
    obtain ⟨p, rfl⟩ := List.mem_ofFn.1 hnp
    exact hname p) [(m.pois 0, .new (m.pois 0) (some x))]
  have e : FitResult.fillPois m.parModel ⟨[x], List.ofFn θ⟩ m.parModel.pois [] =
      .ok [(m.pois 0, .new (m.pois 0) (some x))] := by
    rw [show m.parModel.pois = [m.pois 0] by simp [Mdl.parModel, List.ofFn_succ]]
    simp only [FitResult.fillPois, par_get, bind_ok]
    rfl
  unfold FitResult.init
  simp only [e, bind_ok]
  rw [show m.parModel.nps = List.ofFn m.nps from rfl, h1]
  exact ⟨_, rfl, by rw [h2]; simp [Dict.get?]⟩

/-- `compute_fast_plr` succeeds. -/
theorem plr_total {m : Mdl 1 P} {A : Mdl.Arrays} (hg : GaussianModel m A) (ha : AffineYields m A)
    (hname : ∀ p, (m.nps p).name ≠ m.pois 0)
    {d : Mdl.DataV P} {best σ k lo hi : ℝ} (hσ : 0 < σ) (hp : Parabola m A d best σ k) (h1 : lo ≤ best)
    (h2 : best ≤ hi) (hlh : lo < hi) {floor : Option ℝ} {c : CalcSetup} (hc : CalculatorOf m lo hi c)
    (hopt : Evaluates c.opt) (hend : EndsAtResult c.opt)
    (hF : FindsMinima P c.opt (m.fitEnv A d 1 floor) ⟨m.pois 0, some lo, some hi⟩)
    {s : OptiMin ℝ} (ha' : s.altMethod = none) (hb : s.rebound = 0) (hsb : s.bounds = none)
    (hm : KnownMethod s.method) (v : ℝ) :
    ∃ s' ff hf, fastPlr c (m.fitEnv A d 1 floor) [(m.pois 0, v)] none s = .ok (s',
        ⟨[(m.pois 0, v)], some ff, some hf, [("tmu", plr v σ best)], [], none⟩) ∧
      Dict.get? ff.fitpars (m.pois 0) = some (.new (m.pois 0) (some best)) := by
  obtain ⟨s', out, ht, ⟨θh, eh⟩, θf, ef⟩ := tmu_total hg ha hσ hp h1 h2 hlh hc hopt hend hF ha' hb hsb hm v
  obtain ⟨r1, _, _⟩ := tmu_plr hg hp h1 h2 hlh hc hopt hF ha' hb hsb ht
  obtain ⟨ff, f1, f2⟩ := init_total m hname best θf out.freeNll
  obtain ⟨hf, g1, _⟩ := init_total m hname v θh out.hypoNll
  refine ⟨s', ff, hf, ?_, f2⟩
  have hmem : ∀ n ∈ Dict.keys [(m.pois 0, v)], n ∈ c.m.pois := by
    rw [hc.model]
    simp [Dict.keys, Mdl.parModel, List.ofFn_succ]
  unfold fastPlr
  simp only [Option.getD_none]
  unfold PLRData.update
  simp only
  rw [if_pos hmem, if_neg (by simp), bind_ok, ht, bind_ok]
  simp only
  rw [hc.model] at hmem ⊢
  rw [ef, f1, bind_ok, eh, g1, bind_ok]
  rw [if_pos hmem, if_neg (by simp [Dict.set, Dict.keys]), bind_ok, r1]
  rfl

/-- The p-values of the three calculators are computed for a positive hypothesis. -/
theorem fill_total (k : CalcKind) (n : String) (v σ t b : ℝ) (ff hf : FitResult) (hσ : 0 < σ) (hv : 0 < v)
    (hb : Dict.get? ff.fitpars n = some (.new n (some b))) :
    ∃ d, fillPv k ⟨[(n, v)], some ff, some hf, [("tmu", t), ("tmu_A0", plr v σ 0)], [], none⟩ = .ok d := by
  have hT : 0 < plr v σ 0 := by
    unfold plr
    have : 0 < (v - 0) / σ := by rw [sub_zero]; exact div_pos hv hσ
    positivity
  cases k with
  | tmu => exact ⟨_, rfl⟩
  | qmu =>
    simp [fillPv, makeQMu, calcPoi, bestOf, Dict.keys, Dict.getItem, Dict.get?, FitPar.new, hb,
        QMu.asymptoticPv, QMu.asymptoticCls, QMu.asymptoticClb, clsOf, QMu.ncp, QMu.init, hv.ne']
  | qmutilda =>
    have h1 : ∀ (q : QMuTilda), q.tmuA0 = some (plr v σ 0) → q.tmuAmu = some (plr v σ 0) →
        ∃ p, q.asymptoticPv = .ok p := by
      intro q e1 e2
      have hn : ∃ l, q.ncp = .ok l := by
        unfold QMu.ncp
        by_cases hh : q.compPoi = q.testPoi
        · rw [if_pos hh]; exact ⟨_, rfl⟩
        · rw [if_neg hh, e2]; exact ⟨_, rfl⟩
      obtain ⟨l, hl⟩ := hn
      unfold QMuTilda.asymptoticPv QMuTilda.threshold
      rw [e1]
      simp only [not_lt.2 hT.le, if_false, bind_ok, hT.ne']
      split
      · unfold QMu.asymptoticPv
        rw [hl]; exact ⟨_, rfl⟩
      · rw [hl]; exact ⟨_, rfl⟩
    have e : makeQMuTilda ⟨[(n, v)], some ff, some hf, [("tmu", t), ("tmu_A0", plr v σ 0)], [], none⟩ =
        .ok (QMuTilda.init v t b none none (some (plr v σ 0)) (some (plr v σ 0))) := by
      simp [makeQMuTilda, calcPoi, bestOf, Dict.keys, Dict.getItem, Dict.get?, FitPar.new, hb]
    obtain ⟨p1, q1⟩ := h1 (QMuTilda.init v t b none none (some (plr v σ 0)) (some (plr v σ 0))) rfl rfl
    obtain ⟨p2, q2⟩ := h1 (QMuTilda.init 0 t b none (some v) (some (plr v σ 0)) (some (plr v σ 0))) rfl rfl
    have q3 : QMuTilda.asymptoticClb (QMuTilda.init v t b none none (some (plr v σ 0)) (some (plr v σ 0))) = .ok p2 := q2
    unfold fillPv QMuTilda.asymptoticCls clsOf
    simp only [e, bind_ok, q1, q3, pure_ok]
    exact ⟨_, rfl⟩

/-- `compute_fast_q` succeeds, and stores the best-fit value. -/
theorem q_total {m : Mdl 1 P} {A : Mdl.Arrays} (hg : GaussianModel m A) (ha : AffineYields m A)
    (hname : ∀ p, (m.nps p).name ≠ m.pois 0) {d : Mdl.DataV P} {best σ const : ℝ} (hσ : 0 < σ)
    (hp : Parabola m A d best σ const) {floor : Option ℝ} {lo hi : ℝ} {c : CalcSetup} {s0 : OptiMin ℝ}
    (hu : GoodUse m A d floor best lo hi c s0) (hend : EndsAtResult c.opt) (hm : KnownMethod s0.method)
    (k : CalcKind) {v : ℝ} (hv : 0 < v) :
    ∃ s1 pd, fastQ c k (m.dataEnv A 1 floor d) [(m.pois 0, v)] none s0 = .ok (s1, pd) ∧
      bestIs pd (m.pois 0) best := by
  obtain ⟨t1, ff, hf, h1, hb⟩ := plr_total hg ha hname hσ hp hu.range.2.1 hu.range.2.2.1 hu.range.1 hu.calculator
    hu.evaluates hend hu.data hu.noAlt hu.noRebound hu.fresh hm v
  have has : ∃ ad, m.asimovData A d = .ok ad := by
    obtain ⟨N0, h0⟩ := hg.ref
    obtain ⟨a, s, cc, hy, _⟩ := ha
    obtain ⟨θ1, _, e1, _⟩ := Mdl.gauss_min hg.sym hg.lin hg.cut hg.noLog hg.hsym hg.hpsd hg.noPoisson
      hg.constrained h0 (nll_gF hg hy h0 d 0 0)
    have e1' : m.profile A 0 0 d = .ok θ1 := by
      simp only [Mdl.profileNps] at e1
      obtain ⟨θ', g1, g2⟩ := bind_eq_ok.1 e1
      rw [← Except.ok.inj (ε := PyErr) g2]
      exact g1
    obtain ⟨N, hN, _⟩ := hy 0 θ1
    unfold Mdl.asimovData Mdl.generateAsimov
    rw [e1', bind_ok, show m.totBinExp A 0 θ1 = .ok N from hN]
    exact ⟨_, rfl⟩
  obtain ⟨ad, had⟩ := has
  obtain ⟨σ', hσ', hd, hasp⟩ := uncertainty hg ha
  obtain ⟨b', k', hp'⟩ := hd d
  obtain ⟨_, rfl, _⟩ := Parabola.unique hσ hσ' hp hp'
  have had' := had
  unfold Mdl.asimovData at had'
  obtain ⟨θ, _, hgen⟩ := bind_eq_ok.1 had'
  obtain ⟨k0, hpa⟩ := hasp 0 θ ad hgen
  obtain ⟨t2, ff', hf', h3, _⟩ := plr_total hg ha hname hσ hpa hu.range.2.2.2.1 hu.range.2.2.2.2 hu.range.1
    hu.calculator hu.evaluates hend (hu.asimov ad had) hu.noAlt hu.noRebound hu.fresh hm v
  obtain ⟨hal, _⟩ := fastPlr_keeps c _ _ none s0 t1 _ (CleanUse.reusable (goodUse_clean hu)) h1
  have e3 := fastPlr_alike c hu.evaluates (m.fitEnv A ad 1 floor) [(m.pois 0, v)] none t1 s0 hal.symm
  rw [h3] at e3
  obtain ⟨t3, h3'⟩ := map_snd_ok e3
  obtain ⟨pd, hpd⟩ := fill_total k (m.pois 0) v σ (plr v σ best) best ff hf hσ hv hb
  obtain ⟨_, f2, _⟩ := fillPv_fixed hpd
  refine ⟨t3, pd, (fastQ_inv c k _ _ none s0 t3 pd).2 ⟨t1, _, m.fitEnv A ad 1 floor, _, _, h1, ?_, h3', ?_, hpd⟩, ?_⟩
  · simp only [Mdl.dataEnv, had, bind_ok]; rfl
  · simp [PLRData.setAsimov, Dict.getItem, Dict.get?, Dict.set]
  · exact ⟨ff, _, f2, hb, rfl⟩

/-- The loop over the hypotheses succeeds if each computation does. -/
theorem loop_total (h : List String → ℕ) (c : CalcSetup) (hopt : Evaluates c.opt) (k : CalcKind) (data : DataEnv)
    (hypos : List Hypo) (s0 s : OptiMin ℝ) (r : Raster) (hr0 : Reusable c.pois s0) (hr : Reusable c.pois s)
    (hal : Alike c.pois s0 s) (hq : ∀ hy ∈ hypos, ∃ s1 pd, fastQ c k data hy none s0 = .ok (s1, pd)) :
    ∃ s' r', fastLoop h c k data [] hypos s r = .ok (s', r') := by
  induction hypos generalizing s r with
  | nil => exact ⟨s, r, rfl⟩
  | cons hy l ih =>
    obtain ⟨s1, pd, h1⟩ := hq hy (by simp)
    obtain ⟨s1', h1'⟩ := fastQ_alike c hopt k data hy none s0 s s1 pd hal hr0 hr h1
    obtain ⟨a1, r1⟩ := fastQ_keeps c k data hy none s s1' pd hr h1'
    have : HDict.get? h ([] : HDict (Pars ℝ)) hy = none := rfl
    simp only [fastLoop, this, h1', bind_ok]
    exact ih s1' _ r1 (hal.trans a1) (fun a ha => hq a (by simp [ha]))

end Verif.Lim

namespace Verif.Lim
open Verif.Spec Verif.Props
variable {P : Nat}

open Classical in
/-- An optimiser which goes straight to a minimum, where there is one. -/
noncomputable def straightOpt : Optim ℝ := fun env _ p fr =>
  if h : ∃ run : OptRun ℝ, Optimal env p fr run ∧ run.evals = [run.x] then Classical.choose h
  else ⟨[fr.map fun _ => 0], fr.map fun _ => 0, 0, false⟩

theorem straight_ends : EndsAtResult straightOpt := by
  intro env method p fr
  unfold straightOpt
  split
  · rename_i h
    obtain ⟨h1, h2⟩ := Classical.choose_spec h
    rw [h2]
    refine ⟨?_, rfl⟩
    intro x hx
    rw [List.mem_singleton] at hx
    subst hx
    exact h1.2.1.length_eq.symm
  · simp

theorem straight_evaluates : ∀ env method p fr, (straightOpt env method p fr).evals ≠ [] := by
  intro env method p fr h
  have := (straight_ends env method p fr).2
  rw [h] at this
  simp at this

theorem straight_finds {m : Mdl 1 P} {A : Mdl.Arrays} (hg : GaussianModel m A) (ha : AffineYields m A)
    {d : Mdl.DataV P} {best σ k lo hi : ℝ} (hp : Parabola m A d best σ k) (h1 : lo ≤ best)
    (h2 : best ≤ hi) (floor : Option ℝ) :
    FindsMinima P straightOpt (m.fitEnv A d 1 floor) ⟨m.pois 0, some lo, some hi⟩ := by
  intro method x
  have h : ∃ run : OptRun ℝ, Optimal (m.fitEnv A d 1 floor) ⟨[x], List.replicate P 0⟩
      [(0, ⟨m.pois 0, some lo, some hi⟩)] run ∧ run.evals = [run.x] := by
    refine ⟨⟨[[best]], [best], k, true⟩, ⟨rfl, ?_, ?_, ?_⟩, rfl⟩
    · refine List.Forall₂.cons ?_ List.Forall₂.nil
      exact ⟨by intro l hl; simp only [Option.some.injEq] at hl; rw [← hl]; exact h1,
          by intro l hl; simp only [Option.some.injEq] at hl; rw [← hl]; exact h2⟩
    · obtain ⟨θ, e⟩ := env_value hg ha hp floor best
      refine ⟨⟨[best], List.ofFn θ⟩, ?_⟩
      rw [evalAt_one, e]
      simp
    · intro y v q hy hv
      have hl := hy.length_eq
      match y, hl with
      | [z], _ =>
        rw [evalAt_one] at hv
        obtain ⟨θ, e⟩ := env_value hg ha hp floor z
        rw [e] at hv
        have := congrArg Prod.fst (Except.ok.inj (ε := PyErr) hv)
        simp only at this
        rw [← this]
        have : 0 ≤ ((z - best) / σ) ^ 2 := sq_nonneg _
        simp only
        linarith
  unfold straightOpt
  rw [dif_pos h]
  exact (Classical.choose_spec h).1

/-- For each Gaussian model and dataset there are a calculator and a minimiser as required. -/
theorem goodUse_exists {m : Mdl 1 P} {A : Mdl.Arrays} (hg : GaussianModel m A) (ha : AffineYields m A)
    {d : Mdl.DataV P} {best σ const lo hi : ℝ} (hp : Parabola m A d best σ const) (hlh : lo < hi)
    (h1 : lo ≤ best) (h2 : best ≤ hi) (h3 : lo ≤ 0) (h4 : 0 ≤ hi) (floor : Option ℝ) :
    GoodUse m A d floor best lo hi
        ⟨straightOpt, m.parModel, [⟨m.pois 0, some lo, some hi⟩], ⟨[0], List.replicate P 0⟩⟩
        { method := "scalar", tmuDebug := 0 } where
  calculator := ⟨rfl, rfl, 0, rfl⟩
  range := ⟨hlh, h1, h2, h3, h4⟩
  evaluates := straight_evaluates
  data := straight_finds hg ha hp h1 h2 floor
  asimov := by
    intro a had
    unfold Mdl.asimovData at had
    obtain ⟨θ, _, hgen⟩ := bind_eq_ok.1 had
    obtain ⟨σ', _, _, hasp⟩ := uncertainty hg ha
    obtain ⟨k0, hpa⟩ := hasp 0 θ a hgen
    exact straight_finds hg ha hpa h3 h4 floor
  noAlt := rfl
  noRebound := rfl
  fresh := rfl

end Verif.Lim
