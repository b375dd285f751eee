import Verif.Lemmas.CalcFast
import Verif.Lemmas.TestStat
import Verif.Lemmas.Expr
import Verif.Props.FitData
import Verif.Spec.Calc
import Verif.Props.POIMin
/-!
# C57: using a minimiser again; C58-C59: the calculators
-/
namespace Verif.Props
open Verif Verif.Spec
variable {K : Type} [Field K] [LinearOrder K]

/-! ## C57 -/

theorem afterCalls_alike (opt : Optim K) (m : ParModel K) (pois : List (PoiRange K))
    (calls : List (TmuCall K)) (s0 s : OptiMin K) (hr : Reusable pois s0)
    (h : afterCalls opt m pois calls s0 = .ok s) : Alike pois s0 s ∧ Reusable pois s := by
  induction calls generalizing s0 with
  | nil =>
    have := Except.ok.inj (ε := PyErr) h
    subst this
    exact ⟨⟨rfl, hr.1, hr.1, hr.2.1, hr.2.1, rfl⟩, hr⟩
  | cons c cs ih =>
    obtain ⟨env, init, hypo⟩ := c
    unfold afterCalls at h
    obtain ⟨⟨s1, o⟩, h1, h2⟩ := bind_eq_ok.1 h
    obtain ⟨a1, r1⟩ := tmu_keeps opt m pois env init hypo s0 s1 o hr h1
    obtain ⟨a2, r2⟩ := ih s1 r1 h2
    exact ⟨a1.trans a2, r2⟩

/-- C57: a minimiser with no alternate method, no rebound and at least one free POI, and whose method is
not `scalar` unless exactly one POI is free, can be used any number of times, on any datasets, start
points and hypotheses: the next result (or exception) is the one the minimiser would have given at first. -/
theorem c57_history_independent (opt : Optim K)
    (hopt : ∀ env method p fr, (opt env method p fr).evals ≠ []) (m : ParModel K)
    (pois : List (PoiRange K)) (s0 s : OptiMin K) (fr : List (Nat × ParBound K))
    (ha : s0.altMethod = none) (hb : s0.rebound = 0)
    (hfr : freeBounds (argBounds pois (s0.bounds.map Dict.values)) = .ok fr) (hne : fr ≠ [])
    (hsc : s0.method = "scalar" → fr.length = 1)
    (calls : List (TmuCall K)) (h : afterCalls opt m pois calls s0 = .ok s)
    (env : FitEnv K) (init : Pars K) (hypo : Dict K) :
    outcome (s.tmu opt m pois env init hypo) = outcome (s0.tmu opt m pois env init hypo) :=
  (tmu_alike opt hopt m pois env init hypo s0 s
    (afterCalls_alike opt m pois calls s0 s ⟨ha, hb, fr, hfr, hne, hsc⟩ h).1).symm

/-- C57: the result after any such history is a result of the stateless computation `tmu` to which C20
(value) and C42 (hypothesis kept, bounds respected) apply, with the user's own bounds and method. -/
theorem c57_as_first_use (opt : Optim K)
    (hopt : ∀ env method p fr, (opt env method p fr).evals ≠ []) (m : ParModel K)
    (pois : List (PoiRange K)) (s0 s s' : OptiMin K) (fr : List (Nat × ParBound K))
    (ha : s0.altMethod = none) (hb : s0.rebound = 0)
    (hfr : freeBounds (argBounds pois (s0.bounds.map Dict.values)) = .ok fr) (hne : fr ≠ [])
    (hsc : s0.method = "scalar" → fr.length = 1)
    (calls : List (TmuCall K)) (h : afterCalls opt m pois calls s0 = .ok s)
    (env : FitEnv K) (init : Pars K) (hypo : Dict K) (out : TmuOut K)
    (ho : s.tmu opt m pois env init hypo = .ok (s', out)) :
    ∃ runH runF, Verif.tmu env m pois s0.method (s0.bounds.map Dict.values) init hypo runH runF = .ok out := by
  have e := c57_history_independent opt hopt m pois s0 s fr ha hb hfr hne hsc calls h env init hypo
  rw [ho] at e
  have e' : outcome (s0.tmu opt m pois env init hypo) = .ok out := e.symm
  obtain ⟨⟨s1, o1⟩, h1, h2⟩ : ∃ x, s0.tmu opt m pois env init hypo = .ok x ∧ x.2 = out := by
    revert e'
    cases s0.tmu opt m pois env init hypo with
    | error e => intro e'; cases e'
    | ok x => intro e'; exact ⟨x, rfl, Except.ok.inj (ε := PyErr) e'⟩
  simp only at h2
  subst h2
  rw [tmu_eq_attempt _ _ _ _ _ _ s0 ha hb] at h1
  obtain ⟨pf, bf, ph, bh, sh, rh, sf, rf, a1, a2, a3, a4, b1, b2, b3, b4, b5, _⟩ :=
    attempt_inv opt m pois env init hypo s0 s1 o1 h1
  rw [minimizeD_congr opt hopt env m s0.method pf bf s0.minNll none s0.minPars none] at a4
  unfold minimizeD at a3 a4
  obtain ⟨runH, _, c3⟩ := bind_eq_ok.1 a3
  obtain ⟨runF, _, c4⟩ := bind_eq_ok.1 a4
  refine ⟨runH, runF, ?_⟩
  unfold Verif.tmu
  rw [a1, bind_ok]
  simp only
  rw [a2, bind_ok]
  simp only
  rw [c3, bind_ok]
  simp only
  rw [c4, bind_ok]
  simp only [b1, b2, b3, b4]
  rw [← b5]
  rfl

/-- C57 fails with the `rebound` option (F47): whenever the free fit ends above the hypothesis fit by
more than 5e-11, `tmu` raises `TypeError` instead of trying again with narrower bounds. -/
theorem c57_rebound_fails [IsStrictOrderedRing K] (opt : Optim K) (m : ParModel K)
    (pois : List (PoiRange K)) (s s1 : OptiMin K)
    (env : FitEnv K) (init : Pars K) (hypo : Dict K) (o : TmuOut K)
    (h : s.attempt opt m pois env init hypo = .ok (s1, o))
    (hneg : 2 * (o.hypoNll - o.freeNll) < -(1 / 10 ^ 10))
    (hm : s1.method = "scalar") (hr : s.rebound > 0) :
    s.tmu opt m pois env init hypo = .error .typeError := by
  obtain ⟨_, _, _, _, _, _, sf, _, _, _, _, _, _, _, _, _, ht, hs⟩ :=
    attempt_inv opt m pois env init hypo s s1 o h
  have h10 : (0:K) < 1 / 10 ^ 10 := by positivity
  have h1 : o.tmu = 0 := by
    rw [ht]; unfold tmuValue; rw [if_pos (by linarith)]
  have h2 : s1.tmuDebug < 0 := by
    rw [hs]; simp only; rw [if_pos hneg]; linarith
  have h3 : s1.rebound > 0 := by rw [hs]; exact hr
  unfold OptiMin.tmu
  rw [h, bind_ok]
  simp only [h1, h2, hm, h3, and_self, if_true]
  rfl

/-- An alternate method that was used once stays in use: the minimiser has then forgotten the primary
method (and has no alternate any more), whatever the later calls are. -/
theorem c57_alternate_stays [IsStrictOrderedRing K] (opt : Optim K) (m : ParModel K)
    (pois : List (PoiRange K)) (s s1 s' : OptiMin K)
    (env : FitEnv K) (init : Pars K) (hypo : Dict K) (o o' : TmuOut K) (alt : String)
    (h : s.attempt opt m pois env init hypo = .ok (s1, o))
    (hneg : 2 * (o.hypoNll - o.freeNll) < -(1 / 10 ^ 10)) (ha : s.altMethod = some alt)
    (fr : List (Nat × ParBound K))
    (hfr : freeBounds (argBounds pois (s.bounds.map Dict.values)) = .ok fr) (hne : fr ≠ [])
    (hsc : alt = "scalar" → fr.length = 1)
    (h' : s.tmu opt m pois env init hypo = .ok (s', o')) :
    s'.method = alt ∧ s'.altMethod = none := by
  obtain ⟨pf, bf, _, _, _, _, sf, _, q1, _, _, _, _, _, _, _, ht, hs⟩ :=
    attempt_inv opt m pois env init hypo s s1 o h
  have h10 : (0:K) < 1 / 10 ^ 10 := by positivity
  have h1 : o.tmu = 0 := by
    rw [ht]; unfold tmuValue; rw [if_pos (by linarith)]
  have h2 : s1.tmuDebug < 0 := by
    rw [hs]; simp only; rw [if_pos hneg]; linarith
  have h3 : s1.altMethod = some alt := by rw [hs]; exact ha
  have hbf := setPois_bounds m pois init pf _ _ bf q1
  have hb1 : s1.bounds = some bf := by rw [hs]
  unfold OptiMin.tmu at h'
  rw [h, bind_ok] at h'
  simp only [h1, h2, and_self, if_true, h3] at h'
  split_ifs at h' with hr
  · cases h'
  · obtain ⟨⟨s2, o2⟩, k1, k2⟩ := bind_eq_ok.1 h'
    have hs' : s' = s2 := by
      simp only at k2
      split_ifs at k2
      · cases k2
      · have := Except.ok.inj (ε := PyErr) k2
        simp only [Prod.mk.injEq] at this
        exact this.1.symm
    subst hs'
    obtain ⟨pf2, bf2, _, _, _, _, sf2, rf2, w1, _, _, w4, _, _, _, _, _, ws⟩ :=
      attempt_inv opt m pois env init hypo _ _ o2 k1
    have hbf2 := setPois_bounds m pois init pf2 _ _ bf2 w1
    have hbeq : bf2 = argBounds pois (s.bounds.map Dict.values) := by
      rw [hbf2]
      simp only [hb1, Option.map_some]
      rw [hbf]
      exact argBounds_again pois _
    refine ⟨?_, by rw [ws]⟩
    rw [ws]
    simp only
    rw [minimizeD_method opt env m _ sf2 rf2 fr (by simpa [hbeq] using hfr) hne w4]
    simp only
    rw [if_neg]
    rintro ⟨hl, he⟩
    have := hsc he
    omega

/-- A model with two POIs and no NP, whose NLL is `(a - 1)^2 + (b - 2)^2`. -/
def twoEnv : FitEnv ℚ where
  profile := fun p => .ok p
  nll := fun p => match p.pois with
    | [x, y] => .ok ((x - 1) * (x - 1) + (y - 2) * (y - 2))
    | _ => .error .indexError

def twoModel : ParModel ℚ := ⟨["a", "b"], []⟩

def twoPois : List (PoiRange ℚ) := [⟨"a", some 0, some 10⟩, ⟨"b", some 0, some 10⟩]

/-- An optimiser whose `scalar` method is exact and whose `L-BFGS-B` method stops at `b = 5/2` when only
`b` is free; the minima it reports are values of the objective at points it evaluated. -/
def twoOpt : Optim ℚ := fun _ method _ fr =>
  if method = "scalar" then ⟨[[2]], [2], 4, true⟩
  else if fr.length = 1 then ⟨[[5 / 2]], [5 / 2], 17 / 4, true⟩
  else ⟨[[1, 2]], [1, 2], 0, true⟩

/-- C57 is false of the code for `scalar` (the default) with two free POIs (F44): the first call switches
the minimiser to `L-BFGS-B` for good, so that the same call made twice on the same data gives different
values when the hypothesis leaves one POI free, here 8 and 17/2. -/
theorem c57_method_switched :
    ∃ (s0 s1 s2 : OptiMin ℚ) (o1 o2 : TmuOut ℚ),
      s0.method = "scalar" ∧ s0.altMethod = none ∧ s0.rebound = 0 ∧ s0.bounds = none ∧
      s0.tmu twoOpt twoModel twoPois twoEnv ⟨[0, 0], []⟩ [("a", 3)] = .ok (s1, o1) ∧
      s1.tmu twoOpt twoModel twoPois twoEnv ⟨[0, 0], []⟩ [("a", 3)] = .ok (s2, o2) ∧
      o1.tmu = 8 ∧ o2.tmu = 17 / 2 := by
  refine ⟨{ method := "scalar", tmuDebug := 0 },
    { method := "L-BFGS-B", tmuDebug := 0, bounds := some (twoPois.map fun b => (b.par, b)),
      minNll := some 0, minPars := some ⟨[1, 2], []⟩ },
    { method := "L-BFGS-B", tmuDebug := 0, bounds := some (twoPois.map fun b => (b.par, b)),
      minNll := some 0, minPars := some ⟨[1, 2], []⟩ },
    ⟨8, 4, 0, ⟨[3, 2], []⟩, ⟨[1, 2], []⟩⟩, ⟨17 / 2, 17 / 4, 0, ⟨[3, 5 / 2], []⟩, ⟨[1, 2], []⟩⟩,
    rfl, rfl, rfl, rfl, ?_, ?_, rfl, rfl⟩
  all_goals with_unfolding_all rfl

/-- Non-vacuity of `c57_history_independent`: the same minimiser with `L-BFGS-B`. -/
example : (∀ env method p fr, (twoOpt env method p fr).evals ≠ []) ∧
    freeBounds (argBounds twoPois none) =
      .ok [(0, ⟨"a", some 0, some 10⟩), (1, ⟨"b", some 0, some 10⟩)] ∧
    ∃ s o, (OptiMin.tmu twoOpt twoModel twoPois twoEnv ⟨[0, 0], []⟩ [("a", 3)]
      { method := "L-BFGS-B", tmuDebug := 0 }) = .ok (s, o) := by
  refine ⟨?_, ?_,
    { method := "L-BFGS-B", tmuDebug := 0, bounds := some (twoPois.map fun b => (b.par, b)),
      minNll := some 0, minPars := some ⟨[1, 2], []⟩ },
      ⟨17 / 2, 17 / 4, 0, ⟨[3, 5 / 2], []⟩, ⟨[1, 2], []⟩⟩, ?_⟩
  · intro env method p fr
    unfold twoOpt
    split_ifs <;> simp
  · with_unfolding_all rfl
  · with_unfolding_all rfl

/-- An optimiser whose `scalar` method stops too early, for a model with one POI and NLL `(a - 1)^2`. -/
def badOpt : Optim ℚ := fun _ method _ _ =>
  if method = "scalar" then ⟨[[5]], [5], 16, true⟩ else ⟨[[1]], [1], 0, true⟩

def singleEnv : FitEnv ℚ where
  profile := fun p => .ok p
  nll := fun p => match p.pois with
    | [x] => .ok ((x - 1) * (x - 1))
    | _ => .error .indexError

/-- Non-vacuity of `c57_rebound_fails` and `c57_alternate_stays`: the free fit ends above the fit at the
hypothesis `a = 2`; the alternate method then finds the minimum. -/
example : (∃ s1 o, OptiMin.attempt badOpt ⟨["a"], []⟩ [⟨"a", some 0, some 10⟩] singleEnv ⟨[0], []⟩ [("a", 2)]
      { method := "scalar", tmuDebug := 0, rebound := 3 } = .ok (s1, o) ∧
      2 * (o.hypoNll - o.freeNll) < -(1 / 10 ^ 10) ∧ s1.method = "scalar") ∧
    (∃ s1 o, OptiMin.tmu badOpt ⟨["a"], []⟩ [⟨"a", some 0, some 10⟩] singleEnv ⟨[0], []⟩ [("a", 2)]
      { method := "scalar", tmuDebug := 0, altMethod := some "L-BFGS-B" } = .ok (s1, o) ∧ o.tmu = 2) := by
  refine ⟨⟨
    { method := "scalar", tmuDebug := -30, rebound := 3, bounds := some [("a", ⟨"a", some 0, some 10⟩)],
      minNll := some 16, minPars := some ⟨[5], []⟩ },
    ⟨0, 1, 16, ⟨[2], []⟩, ⟨[5], []⟩⟩, ?_, ?_, rfl⟩,
    { method := "L-BFGS-B", tmuDebug := -30, altMethod := none, bounds := some [("a", ⟨"a", some 0, some 10⟩)],
      minNll := some 0, minPars := some ⟨[1], []⟩ },
    ⟨2, 1, 0, ⟨[2], []⟩, ⟨[1], []⟩⟩, ?_, rfl⟩
  · with_unfolding_all rfl
  · norm_num
  · with_unfolding_all rfl

/-! ## C58: the calculators -/

open Classical

theorem CleanUse.reusable {c : CalcSetup} {s0 : OptiMin ℝ} (h : CleanUse c s0) : Reusable c.pois s0 :=
  ⟨h.noAlt, h.noRebound, h.free⟩

/-- `raster.plr_data[hypo].test_statistics[key]`. -/
def statIs (d : PLRData) (key : String) (t : ℝ) : Prop := Dict.get? d.testStats key = some t

/-- `raster.plr_data[hypo].pvs[key]`. -/
def pvIs (d : PLRData) (key : String) (t : ℝ) : Prop := Dict.get? d.pvs key = some t

/-- The value of a POI in the free fit. -/
def bestIs (d : PLRData) (poi : String) (b : ℝ) : Prop :=
  ∃ f p, d.freeFit = some f ∧ Dict.get? f.fitpars poi = some p ∧ p.value = some b

theorem distinct_not_matches (h : List String → ℕ) {l : List Hypo} (hw : ∀ a ∈ l, (Dict.keys a).Nodup)
    (hd : l.Pairwise (fun a b => ¬ SameHypo a b)) : l.Pairwise (fun a b => ¬ a.matches h b) := by
  refine List.Pairwise.imp_of_mem ?_ hd
  intro a b ha hb hne hm
  exact hne ((Hypo.eqv_iff (hw a ha) (hw b hb)).1 hm.2)

theorem fastQ_facts (c : CalcSetup) (k : CalcKind) (data : DataEnv) (hypo : Hypo)
    (full : Option (Pars ℝ)) (s s' : OptiMin ℝ) (d : PLRData) (hs : s.altMethod = none) (hs' : s.rebound = 0)
    (h : fastQ c k data hypo full s = .ok (s', d)) :
    ∃ a b, FitNlls d a b ∧ tmuIs d (max 0 (2 * (a - b))) ∧ d.hypo = hypo ∧ fillPv k d = .ok d := by
  obtain ⟨t1, d1, ae, a, d2, h1, h2, h3, h4, h5⟩ := (fastQ_inv c k data hypo full s s' d).1 h
  obtain ⟨o, ho, hp⟩ := fastPlr_tmu c data.fit hypo full s t1 d1 h1
  rw [tmu_eq_attempt _ _ _ _ _ _ s hs hs'] at ho
  obtain ⟨_, _, _, _, _, _, _, _, _, _, _, _, _, _, _, _, ht, _⟩ := attempt_inv _ _ _ _ _ _ _ _ _ ho
  obtain ⟨ff, hf, i1, i2, rfl, _⟩ := plrOf_spec c hypo full o d1 hp
  unfold PLRData.setAsimov at h4
  obtain ⟨A, _, h6⟩ := bind_eq_ok.1 h4
  have e2 := Except.ok.inj (ε := PyErr) h6
  obtain ⟨f1, f2, f3, f4, f5⟩ := fillPv_fixed h5
  refine ⟨o.hypoNll, o.freeNll, ⟨hf, ff, ?_, ?_, init_nll i2, init_nll i1⟩, ?_, ?_,
    fillPv_again h5⟩
  · rw [f3, ← e2]
  · rw [f2, ← e2]
  · unfold tmuIs
    rw [f5 "tmu" (by decide) (by decide), ← e2]
    simp only
    rw [Dict.get?_set_ne _ _ (by decide)]
    simp only [Dict.get?, if_true, ht, tmuValue]
    congr 1
    split_ifs with hc
    · rw [max_eq_left hc.le]
    · rw [max_eq_right (not_lt.1 hc)]
  · rw [f1, ← e2]

theorem fillAllPv_spec {k : CalcKind} {r r' : Raster} (h : fillAllPv k r = .ok r') :
    List.Forall₂ (fun e e' => e'.1 = e.1 ∧ fillPv k e.2.data = .ok e'.2.data) r r' := by
  unfold fillAllPv at h
  rw [mapM_ok_iff] at h
  refine h.imp ?_
  intro e e' he
  rw [fillEntry, bind_eq_ok] at he
  obtain ⟨d, hd, he1⟩ := he
  have := Except.ok.inj (ε := PyErr) he1
  rw [← this]
  exact ⟨rfl, hd⟩

/-- What is stored for a hypothesis, given what a computation for this hypothesis alone gives. -/
def FromAlone (k : CalcKind) (hy : Hypo) (d : PLRData) (e : Hypo × REntry) : Prop :=
  e.1 = hy ∧ ∃ a b, FitNlls d a b ∧ tmuIs d (max 0 (2 * (a - b))) ∧ fillPv k d = .ok d ∧ d.hypo = hy ∧
    fillPv k { d with testStats := d.testStats.set "tmu" (2 * (a - b)) } = .ok e.2.data

theorem fastResults_spec (h : List String → ℕ) (c : CalcSetup) (k : CalcKind) (data : DataEnv)
    (hypos : List Hypo) (full : HDict (Pars ℝ)) (s0 s' : OptiMin ℝ) (r : Raster) (hc : CleanUse c s0)
    (hw : ∀ a ∈ hypos, (Dict.keys a).Nodup) (hd : hypos.Pairwise (fun a b => ¬ SameHypo a b))
    (hres : fastResults h c k data hypos full s0 = .ok (s', r)) :
    List.Forall₂ (fun hy e => ∃ s1 d, fastQ c k data hy (full.get? h hy) s0 = .ok (s1, d) ∧
      FromAlone k hy d e) hypos r := by
  unfold fastResults at hres
  obtain ⟨⟨s1, r1⟩, h1, h2⟩ := bind_eq_ok.1 hres
  simp only at h2
  obtain ⟨r2, h3, h4⟩ := bind_eq_ok.1 h2
  obtain ⟨r3, h5, h6⟩ := bind_eq_ok.1 h4
  have e6 := Except.ok.inj (ε := PyErr) h6
  simp only [Prod.mk.injEq] at e6
  obtain ⟨_, rfl⟩ := e6
  have hR := CleanUse.reusable hc
  obtain ⟨l, hl, hf⟩ := fastLoop_spec h c hc.evaluates k data full hypos s0 s0 s1 [] r1 hR hR
    ⟨rfl, hc.noAlt, hc.noAlt, hc.noRebound, hc.noRebound, rfl⟩ (distinct_not_matches h hw hd) (by simp) h1
  rw [List.nil_append] at hl
  subst hl
  have g2 := Raster.init_spec h3
  have g3 := fillAllPv_spec h5
  have := Raster.forall2_comp (T := fun (hy : Hypo) (e : Hypo × REntry) => e.1 = hy ∧
      ∃ s1 d a b, fastQ c k data hy (full.get? h hy) s0 = .ok (s1, d) ∧ PLRData.HasNlls d a b ∧
        e.2.data = { d with testStats := d.testStats.set "tmu" (2 * (a - b)) })
    (fun hy x e hx he => by
      obtain ⟨x1, _, s1, x2⟩ := hx
      obtain ⟨e1, a, b, e2, e3⟩ := he
      exact ⟨e1.trans x1, s1, _, a, b, x2, e2, e3⟩) hf g2
  refine Raster.forall2_comp (fun hy x e hx he => ?_) this g3
  obtain ⟨x1, s1, d, a, b, x2, x3, x4⟩ := hx
  obtain ⟨e1, e2⟩ := he
  obtain ⟨a', b', y1, y2, y3, y4⟩ := fastQ_facts c k data hy _ s0 s1 d hc.noAlt hc.noRebound x2
  obtain ⟨rfl, rfl⟩ := PLRData.HasNlls.unique x3 y1
  refine ⟨s1, d, x2, e1.trans x1, a, b, y1, y2, y4, y3, ?_⟩
  rw [← x4]; exact e2

/-- C58: the results for a list of distinct hypotheses are the results for each of them computed alone
with a fresh minimiser, in the order of the list.  The fits and the Asimov statistic are the same; the
PLR statistic stored by the raster is twice the NLL difference where the single computation clips it at
0, so everything is identical unless the free fit ended above the hypothesis fit. -/
theorem c58_each_alone (h : List String → ℕ) (c : CalcSetup) (k : CalcKind) (data : DataEnv)
    (hypos : List Hypo) (full : HDict (Pars ℝ)) (s0 s' : OptiMin ℝ) (r : Raster) (hc : CleanUse c s0)
    (hw : ∀ a ∈ hypos, (Dict.keys a).Nodup) (hd : hypos.Pairwise (fun a b => ¬ SameHypo a b))
    (hres : fastResults h c k data hypos full s0 = .ok (s', r)) :
    List.Forall₂ (fun hy e => e.1 = hy ∧
      ∃ s1 d a b, fastQ c k data hy (full.get? h hy) s0 = .ok (s1, d) ∧
        FitNlls d a b ∧ tmuIs d (max 0 (2 * (a - b))) ∧ tmuIs e.2.data (2 * (a - b)) ∧
        e.2.data.hypo = hy ∧ e.2.data.freeFit = d.freeFit ∧ e.2.data.hypoFit = d.hypoFit ∧
        Dict.get? e.2.data.testStats "tmu_A0" = Dict.get? d.testStats "tmu_A0" ∧
        (b ≤ a → e.2.data = d)) hypos r := by
  refine (fastResults_spec h c k data hypos full s0 s' r hc hw hd hres).imp ?_
  rintro hy e ⟨s1, d, hq, e1, a, b, hn, ht, hfix, hh, hfill⟩
  obtain ⟨f1, f2, f3, f4, f5⟩ := fillPv_fixed hfill
  refine ⟨e1, s1, d, a, b, hq, hn, ht, ?_, by rw [f1]; exact hh, f2, f3, ?_, ?_⟩
  · unfold tmuIs
    rw [f5 "tmu" (by decide) (by decide)]
    exact Dict.get?_set_self _ _ _
  · rw [f5 "tmu_A0" (by decide) (by decide)]
    exact Dict.get?_set_ne _ _ (by decide)
  · intro hab
    have : Dict.set d.testStats "tmu" (2 * (a - b)) = d.testStats := by
      refine Dict.set_same _ _ _ ?_
      unfold tmuIs at ht
      rw [ht, max_eq_right (by linarith)]
    rw [this] at hfill
    exact Except.ok.inj (ε := PyErr) (hfill.symm.trans hfix)

/-- C58: the values stored for a hypothesis do not depend on which other hypotheses are computed in the
same call, nor on their order. -/
theorem c58_order_independent (h : List String → ℕ) (c : CalcSetup) (k : CalcKind) (data : DataEnv)
    (l l' : List Hypo) (full : HDict (Pars ℝ)) (s0 s1 s2 : OptiMin ℝ) (r r' : Raster) (hc : CleanUse c s0)
    (hw : ∀ a ∈ l, (Dict.keys a).Nodup) (hd : l.Pairwise (fun a b => ¬ SameHypo a b))
    (hw' : ∀ a ∈ l', (Dict.keys a).Nodup) (hd' : l'.Pairwise (fun a b => ¬ SameHypo a b))
    (hr : fastResults h c k data l full s0 = .ok (s1, r))
    (hr' : fastResults h c k data l' full s0 = .ok (s2, r')) :
    ∀ e ∈ r, ∀ e' ∈ r', e.1 = e'.1 → e.2.data = e'.2.data := by
  have key : ∀ (l : List Hypo) (r : Raster), List.Forall₂ (fun hy e =>
      ∃ s1 d, fastQ c k data hy (full.get? h hy) s0 = .ok (s1, d) ∧ FromAlone k hy d e) l r →
      ∀ e ∈ r, ∃ s1 d, fastQ c k data e.1 (full.get? h e.1) s0 = .ok (s1, d) ∧ FromAlone k e.1 d e := by
    intro l r hf
    induction hf with
    | nil => simp
    | cons hx _ ih =>
      intro e he
      rcases List.mem_cons.1 he with rfl | he
      · obtain ⟨s1, d, hq, hfa⟩ := hx
        have := hfa.1
        rw [this]
        exact ⟨s1, d, hq, hfa⟩
      · exact ih e he
  intro e he e' he' heq
  obtain ⟨u1, d1, q1, _, a, b, n1, _, _, _, z1⟩ := key l r (fastResults_spec h c k data l full s0 s1 r hc hw hd hr) e he
  obtain ⟨u2, d2, q2, _, a', b', n2, _, _, _, z2⟩ :=
    key l' r' (fastResults_spec h c k data l' full s0 s2 r' hc hw' hd' hr') e' he'
  rw [heq] at q1
  have := Except.ok.inj (ε := PyErr) (q1.symm.trans q2)
  simp only [Prod.mk.injEq] at this
  obtain ⟨_, rfl⟩ := this
  obtain ⟨rfl, rfl⟩ := PLRData.HasNlls.unique n1 n2
  exact Except.ok.inj (ε := PyErr) (z1.symm.trans z2)

theorem ssqrt_eq (x : ℝ) : ssqrt x = signedSqrt x := by
  unfold ssqrt signedSqrt
  rcases lt_trichotomy x 0 with h | h | h
  · rw [if_neg (not_le.2 h), sign_neg h, abs_of_neg h]; simp
  · subst h; simp
  · rw [if_pos h.le, sign_pos h, abs_of_pos h]; simp

theorem bestOf_ok {d : PLRData} {poi : String} {b : ℝ} (h : bestOf d poi = .ok b) : bestIs d poi b := by
  unfold bestOf at h
  cases hf : d.freeFit with
  | none => rw [hf] at h; cases h
  | some f =>
    rw [hf] at h
    obtain ⟨p, h1, h2⟩ := bind_eq_ok.1 h
    cases hv : p.value with
    | none => rw [hv] at h2; cases h2
    | some v =>
      rw [hv] at h2
      have := Except.ok.inj (ε := PyErr) h2
      subst this
      exact ⟨f, p, hf, Dict.getItem_ok.1 h1, hv⟩

theorem fastResults_fill (h : List String → ℕ) (c : CalcSetup) (k : CalcKind) (data : DataEnv)
    (hypos : List Hypo) (full : HDict (Pars ℝ)) (s0 s' : OptiMin ℝ) (r : Raster)
    (hres : fastResults h c k data hypos full s0 = .ok (s', r)) :
    ∀ e ∈ r, fillPv k e.2.data = .ok e.2.data := by
  unfold fastResults at hres
  obtain ⟨⟨s1, r1⟩, h1, h2⟩ := bind_eq_ok.1 hres
  simp only at h2
  obtain ⟨r2, h3, h4⟩ := bind_eq_ok.1 h2
  obtain ⟨r3, h5, h6⟩ := bind_eq_ok.1 h4
  have e6 := Except.ok.inj (ε := PyErr) h6
  simp only [Prod.mk.injEq] at e6
  obtain ⟨_, rfl⟩ := e6
  have g3 := fillAllPv_spec h5
  intro e he
  clear h1 h2 h3 h4 h5 h6 hres
  induction g3 with
  | nil => simp at he
  | cons hx _ ih =>
    rcases List.mem_cons.1 he with rfl | he
    · exact fillPv_again hx.2
    · exact ih he

/-- C58, two-sided statistic: the stored p-value is the chi-square tail probability of the stored
statistic, with as many degrees of freedom as there are POIs in the hypothesis. -/
theorem c58_tmu_values (h : List String → ℕ) (c : CalcSetup) (data : DataEnv)
    (hypos : List Hypo) (full : HDict (Pars ℝ)) (s0 s' : OptiMin ℝ) (r : Raster)
    (hres : fastResults h c .tmu data hypos full s0 = .ok (s', r)) :
    ∀ e ∈ r, ∃ t, statIs e.2.data "tmu" t ∧
      pvIs e.2.data "pv" (chi2Sf t (Dict.keys e.2.data.hypo).length) := by
  intro e he
  have hf := fastResults_fill h c .tmu data hypos full s0 s' r hres e he
  unfold fillPv at hf
  obtain ⟨q, h1, h2⟩ := bind_eq_ok.1 hf
  unfold makeTMu at h1
  obtain ⟨t, h3, h4⟩ := bind_eq_ok.1 h1
  have e4 := Except.ok.inj (ε := PyErr) h4
  have e2 := Except.ok.inj (ε := PyErr) h2
  refine ⟨t, Dict.getItem_ok.1 h3, ?_⟩
  unfold pvIs
  rw [← e2]
  simp only
  rw [Dict.get?_set_self, ← e4]
  simp [TMu.asymptoticPv, Dict.values, Dict.keys]

theorem hypo_first {d : PLRData} {poi : String} {x : ℝ} (h1 : calcPoi d = .ok poi)
    (h2 : Dict.getItem d.hypo poi = .ok x) : d.hypo.head? = some (poi, x) := by
  unfold calcPoi at h1
  cases hd : d.hypo with
  | nil => rw [hd] at h1; simp [Dict.keys] at h1
  | cons kv l =>
    obtain ⟨k, v⟩ := kv
    rw [hd] at h1 h2
    simp only [Dict.keys, List.map_cons, Except.ok.injEq] at h1
    subst h1
    have := Dict.getItem_ok.1 h2
    simp only [Dict.get?, if_true, Option.some.injEq] at this
    simp [this]

/-- C58, one-sided statistic: `q_mu`, the p-value, CLb and CLs stored for a hypothesis are the ones of
the stored PLR statistics and of the best fit; the tested POI is the first one of the hypothesis. -/
theorem c58_qmu_values (h : List String → ℕ) (c : CalcSetup) (data : DataEnv)
    (hypos : List Hypo) (full : HDict (Pars ℝ)) (s0 s' : OptiMin ℝ) (r : Raster)
    (hres : fastResults h c .qmu data hypos full s0 = .ok (s', r)) :
    ∀ e ∈ r, ∃ poi test best t A, e.2.data.hypo.head? = some (poi, test) ∧ bestIs e.2.data poi best ∧
      statIs e.2.data "tmu" t ∧ statIs e.2.data "tmu_A0" A ∧
      statIs e.2.data "q_mu" (qmuOf t best test) ∧
      pvIs e.2.data "pv" (qPv (qmuOf t best test) 0) ∧
      pvIs e.2.data "clb" (qPv (qmuOf t best test) (if test = 0 then 0 else max A 0)) ∧
      pvIs e.2.data "cls" (qPv (qmuOf t best test) 0 /
        qPv (qmuOf t best test) (if test = 0 then 0 else max A 0)) := by
  intro e he
  have hf := fastResults_fill h c .qmu data hypos full s0 s' r hres e he
  unfold fillPv at hf
  obtain ⟨q, h1, h2⟩ := bind_eq_ok.1 hf
  obtain ⟨pv, h3, h4⟩ := bind_eq_ok.1 h2
  obtain ⟨cls, h5, h6⟩ := bind_eq_ok.1 h4
  obtain ⟨clb, h7, h8⟩ := bind_eq_ok.1 h6
  have e8 := Except.ok.inj (ε := PyErr) h8
  unfold makeQMu at h1
  obtain ⟨poi, g1, g2⟩ := bind_eq_ok.1 h1
  obtain ⟨test, g3, g4⟩ := bind_eq_ok.1 g2
  obtain ⟨t, g5, g6⟩ := bind_eq_ok.1 g4
  obtain ⟨best, g7, g8⟩ := bind_eq_ok.1 g6
  obtain ⟨A, g9, g10⟩ := bind_eq_ok.1 g8
  have e10 := Except.ok.inj (ε := PyErr) g10
  have hval : q.value = qmuOf t best test := by
    rw [← e10]; rfl
  have hclip : ∀ x : ℝ, (if x < 0 then 0 else x) = max x 0 := by
    intro x; split_ifs with hx
    · rw [max_eq_right hx.le]
    · rw [max_eq_left (not_lt.1 hx)]
  have hpv : q.asymptoticPv = .ok (qPv (qmuOf t best test) 0) := by
    unfold QMu.asymptoticPv
    have hn : q.ncp = .ok 0 := by rw [← e10]; simp [QMu.ncp, QMu.init]
    rw [hn, bind_ok, Option.getD_none, hval]
    simp [qPv, ssqrt_eq]
  have hclb : q.asymptoticClb = .ok (qPv (qmuOf t best test) (if test = 0 then 0 else max A 0)) := by
    unfold QMu.asymptoticClb QMu.asymptoticPv
    have hn : (QMu.init 0 q.tmu q.bestPoi (some q.compPoi) q.tmuAmu q.sigma).ncp
        = .ok (if test = 0 then 0 else max A 0) := by
      rw [← e10]
      unfold QMu.ncp QMu.init
      simp only [Option.getD_some, Option.getD_none]
      by_cases ht : test = 0
      · rw [if_pos ht, if_pos ht]
      · rw [if_neg ht, if_neg ht, hclip]
    rw [hn, bind_ok, Option.getD_none]
    have hv : (QMu.init 0 q.tmu q.bestPoi (some q.compPoi) q.tmuAmu q.sigma).value = qmuOf t best test := by
      rw [← e10]; rfl
    rw [hv]
    simp [qPv, ssqrt_eq]
  have epv := Except.ok.inj (ε := PyErr) (h3.symm.trans hpv)
  have eclb := Except.ok.inj (ε := PyErr) (h7.symm.trans hclb)
  have ecls : cls = qPv (qmuOf t best test) 0 /
      qPv (qmuOf t best test) (if test = 0 then 0 else max A 0) := by
    unfold QMu.asymptoticCls clsOf at h5
    rw [hpv, bind_ok, hclb, bind_ok] at h5
    rw [← Except.ok.inj (ε := PyErr) h5]
    exact if_pos (by unfold qPv; exact normSf_pos _)
  refine ⟨poi, test, best, t, A, hypo_first g1 g3, bestOf_ok g7, Dict.getItem_ok.1 g5,
    Dict.getItem_ok.1 g9, ?_, ?_, ?_, ?_⟩
  · unfold statIs; rw [← e8, ← hval]; exact Dict.get?_set_self _ _ _
  · unfold pvIs; rw [← e8, ← epv]
    simp only
    rw [Dict.get?_set_ne _ _ (by decide), Dict.get?_set_ne _ _ (by decide), Dict.get?_set_self]
  · unfold pvIs; rw [← e8, ← eclb]; exact Dict.get?_set_self _ _ _
  · unfold pvIs; rw [← e8, ← ecls]
    simp only
    rw [Dict.get?_set_ne _ _ (by decide), Dict.get?_set_self]

theorem qtilda_pv (s : QMuTilda) (A l : ℝ) (hA : s.tmuA0 = some A) (hl : s.ncp = .ok l) (pv : ℝ)
    (h : s.asymptoticPv = .ok pv) : pv = qtPv s.value (max A 0) l ∧ (s.value < max A 0 ∨ 0 < A) := by
  have hT : s.threshold = .ok (max A 0) := by
    unfold QMuTilda.threshold; rw [hA]
    simp only
    split_ifs with hx
    · rw [max_eq_right hx.le]
    · rw [max_eq_left (not_lt.1 hx)]
  unfold QMuTilda.asymptoticPv at h
  rw [hT, bind_ok] at h
  simp only [Option.getD_none] at h
  unfold qtPv
  by_cases h1 : s.value < max A 0
  · rw [if_pos h1] at h ⊢
    rw [QMu.pv_eq _ l _ hl] at h
    rw [ssqrt_eq]
    exact ⟨(Except.ok.inj (ε := PyErr) h).symm, Or.inl h1⟩
  · rw [if_neg h1] at h ⊢
    split_ifs at h with h2
    rw [hl, bind_ok] at h
    refine ⟨(Except.ok.inj (ε := PyErr) h).symm, Or.inr ?_⟩
    by_contra hc
    exact h2 (max_eq_right (not_lt.1 hc))

/-- C58, bounded one-sided statistic: `q~mu`, the p-value, CLb and CLs stored for a hypothesis are the
ones of the stored PLR statistics and of the best fit (with `tmu` for the statistic at 0: F42).  The
Asimov statistic is positive unless the value is below the threshold. -/
theorem c58_qmutilda_values (h : List String → ℕ) (c : CalcSetup) (data : DataEnv)
    (hypos : List Hypo) (full : HDict (Pars ℝ)) (s0 s' : OptiMin ℝ) (r : Raster)
    (hres : fastResults h c .qmutilda data hypos full s0 = .ok (s', r)) :
    ∀ e ∈ r, ∃ poi test best t A, e.2.data.hypo.head? = some (poi, test) ∧ bestIs e.2.data poi best ∧
      statIs e.2.data "tmu" t ∧ statIs e.2.data "tmu_A0" A ∧
      statIs e.2.data "q~mu" (qmutOf t best test) ∧ (qmutOf t best test < max A 0 ∨ 0 < A) ∧
      pvIs e.2.data "pv" (qtPv (qmutOf t best test) (max A 0) 0) ∧
      pvIs e.2.data "clb" (qtPv (qmutOf t best test) (max A 0) (if test = 0 then 0 else max A 0)) ∧
      pvIs e.2.data "cls" (qtPv (qmutOf t best test) (max A 0) 0 /
        qtPv (qmutOf t best test) (max A 0) (if test = 0 then 0 else max A 0)) := by
  intro e he
  have hf := fastResults_fill h c .qmutilda data hypos full s0 s' r hres e he
  unfold fillPv at hf
  obtain ⟨q, h1, h2⟩ := bind_eq_ok.1 hf
  obtain ⟨pv, h3, h4⟩ := bind_eq_ok.1 h2
  obtain ⟨cls, h5, h6⟩ := bind_eq_ok.1 h4
  obtain ⟨clb, h7, h8⟩ := bind_eq_ok.1 h6
  have e8 := Except.ok.inj (ε := PyErr) h8
  unfold makeQMuTilda at h1
  obtain ⟨poi, g1, g2⟩ := bind_eq_ok.1 h1
  obtain ⟨test, g3, g4⟩ := bind_eq_ok.1 g2
  obtain ⟨t, g5, g6⟩ := bind_eq_ok.1 g4
  obtain ⟨best, g7, g8⟩ := bind_eq_ok.1 g6
  obtain ⟨A, g9, g10⟩ := bind_eq_ok.1 g8
  have e10 := Except.ok.inj (ε := PyErr) g10
  have hval : q.value = qmutOf t best test := by
    rw [← e10]; rfl
  have hclip : ∀ x : ℝ, (if x < 0 then 0 else x) = max x 0 := by
    intro x; split_ifs with hx
    · rw [max_eq_right hx.le]
    · rw [max_eq_left (not_lt.1 hx)]
  have hn : q.ncp = .ok 0 := by rw [← e10]; simp [QMu.ncp, QMu.init, QMuTilda.init]
  obtain ⟨epv, hpos⟩ := qtilda_pv q A 0 (by rw [← e10]; rfl) hn pv h3
  have hn0 : (QMuTilda.init 0 q.tmu q.bestPoi none (some q.compPoi) q.tmuA0 q.tmuA0).ncp
      = .ok (if test = 0 then 0 else max A 0) := by
    rw [← e10]
    unfold QMu.ncp QMuTilda.init QMu.init
    simp only [Option.getD_some, Option.getD_none]
    by_cases ht : test = 0
    · rw [if_pos ht, if_pos ht]
    · rw [if_neg ht, if_neg ht, hclip]
  have h7' := h7
  unfold QMuTilda.asymptoticClb at h7'
  obtain ⟨eclb, _⟩ := qtilda_pv _ A _ (by rw [← e10]; rfl) hn0 clb h7'
  have hv0 : (QMuTilda.init 0 q.tmu q.bestPoi none (some q.compPoi) q.tmuA0 q.tmuA0).value
      = qmutOf t best test := by
    rw [← e10]; rfl
  rw [hv0] at eclb
  rw [hval] at epv hpos
  have ecls : cls = pv / clb := by
    unfold QMuTilda.asymptoticCls clsOf at h5
    rw [h3, bind_ok, h7, bind_ok] at h5
    rw [← Except.ok.inj (ε := PyErr) h5]
    refine if_pos ?_
    rw [eclb]; unfold qtPv; split_ifs <;> exact normSf_pos _
  refine ⟨poi, test, best, t, A, hypo_first g1 g3, bestOf_ok g7, Dict.getItem_ok.1 g5,
    Dict.getItem_ok.1 g9, ?_, hpos, ?_, ?_, ?_⟩
  · unfold statIs; rw [← e8, ← hval]; exact Dict.get?_set_self _ _ _
  · unfold pvIs; rw [← e8, ← epv]
    simp only
    rw [Dict.get?_set_ne _ _ (by decide), Dict.get?_set_ne _ _ (by decide), Dict.get?_set_self]
  · unfold pvIs; rw [← e8, ← eclb]; exact Dict.get?_set_self _ _ _
  · unfold pvIs; rw [← e8, ← epv, ← eclb, ← ecls]
    simp only
    rw [Dict.get?_set_ne _ _ (by decide), Dict.get?_set_self]

end Verif.Props
