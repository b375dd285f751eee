import Verif.Lemmas.CalcTmu
import Verif.Props.Calc
/-!
# C59: `TMuCalculator.compute_fast_results`
-/
namespace Verif.Props
open Verif Verif.Spec Classical

theorem tmuResults_inv {h : List String → ℕ} {c : CalcSetup} {env : FitEnv ℝ} {hypos : List Hypo}
    {full : HDict (Pars ℝ)} {opt : String} {s s' : OptiMin ℝ} {r : Raster}
    (e : tmuResults h c env hypos full opt s = .ok (s', r)) :
    ∃ mode s1 acc f acc' r1, FreeFit.ofString opt = .ok mode ∧
      tmuLoop h c mode env full hypos s [] = .ok (s1, acc) ∧
      (mode = .all → f = none) ∧ (mode ≠ .all → ∃ s2 g, commonFit c mode env acc s1 = .ok (s2, g) ∧ f = some g) ∧
      tmuFinish h c f hypos acc = .ok acc' ∧
      Raster.init h c.m (acc'.map fun e => (e.1, ⟨e.2.1, none⟩)) = .ok r1 ∧ fillAllPv .tmu r1 = .ok r := by
  unfold tmuResults at e
  obtain ⟨mode, h1, h2⟩ := bind_eq_ok.1 e
  obtain ⟨⟨s1, acc⟩, h3, h4⟩ := bind_eq_ok.1 h2
  simp only at h4
  obtain ⟨⟨s2, f⟩, h5, h6⟩ := bind_eq_ok.1 h4
  simp only at h6
  obtain ⟨acc', h7, h8⟩ := bind_eq_ok.1 h6
  obtain ⟨r1, h9, h10⟩ := bind_eq_ok.1 h8
  obtain ⟨r2, h11, h12⟩ := bind_eq_ok.1 h10
  have e1 := Except.ok.inj (ε := PyErr) h12
  simp only [Prod.mk.injEq] at e1
  obtain ⟨rfl, rfl⟩ := e1
  refine ⟨mode, s1, acc, f, acc', r1, h1, h3, ?_, ?_, h7, h9, h11⟩
  · rintro rfl
    have := Except.ok.inj (ε := PyErr) h5
    simp only [Prod.mk.injEq] at this
    exact this.2.symm
  · intro hm
    have h5' : ((commonFit c mode env acc s1).bind fun x => .ok (x.1, some x.2)) = .ok (s2, f) := by
      cases mode with
      | all => exact absurd rfl hm
      | single => exact h5
      | bestFixed => exact h5
    obtain ⟨⟨s3, g⟩, g1, g2⟩ := bind_eq_ok.1 h5'
    have e2 := Except.ok.inj (ε := PyErr) g2
    simp only [Prod.mk.injEq] at e2
    exact ⟨s3, g, g1, e2.2.symm⟩

/-- What is stored at each hypothesis, in terms of what the loop stored. -/
def FinalOf (c : CalcSetup) (f : Option FitResult) (x : Hypo × (PLRData × Pars ℝ)) (e : Hypo × REntry) :
    Prop :=
  e.1 = x.1 ∧ e.2.data.hypo = x.2.1.hypo ∧ e.2.data.hypoFit = x.2.1.hypoFit ∧
    e.2.data.freeFit = (withFree f x.2.1).freeFit ∧
    ∃ a b, FitNlls e.2.data a b ∧ tmuIs e.2.data (2 * (a - b)) ∧
      pvIs e.2.data "pv" (chi2Sf (2 * (a - b)) (Dict.keys x.2.1.hypo).length)

theorem update_fixed {m : ParModel ℝ} {d d' : PLRData} (h : PLRData.update m d = .ok d') :
    d'.hypo = d.hypo ∧ d'.hypoFit = d.hypoFit ∧ d'.freeFit = d.freeFit := by
  unfold PLRData.update at h
  split_ifs at h
  · obtain ⟨a, b, _, rfl⟩ := PLRData.computeTmu_ok.1 h
    exact ⟨rfl, rfl, rfl⟩
  · have := Except.ok.inj (ε := PyErr) h
    subst this
    exact ⟨rfl, rfl, rfl⟩

theorem forall2_map_left' {α β γ : Type} {R : α → β → Prop} (g : γ → α) {l : List γ} {l' : List β}
    (h : List.Forall₂ R (l.map g) l') : List.Forall₂ (fun x y => R (g x) y) l l' := by
  induction l generalizing l' with
  | nil => cases h; exact .nil
  | cons x l ih => cases h with | cons a b => exact .cons a (ih b)

theorem finish_spec {h : List String → ℕ} {c : CalcSetup} {f : Option FitResult} {acc acc' : TmuAcc}
    {r1 r : Raster} (hw : ∀ e ∈ acc, (Dict.keys e.1).Nodup)
    (hd : (acc.map Prod.fst).Pairwise (fun a b => ¬ a.matches h b))
    (h1 : tmuFinish h c f (acc.map Prod.fst) acc = .ok acc')
    (h2 : Raster.init h c.m (acc'.map fun e => (e.1, ⟨e.2.1, none⟩)) = .ok r1)
    (h3 : fillAllPv .tmu r1 = .ok r) : List.Forall₂ (FinalOf c f) acc r := by
  obtain ⟨l', e1, hf⟩ := tmuFinish_spec h c f acc [] acc' hw hd (by simp) h1
  rw [List.nil_append] at e1
  subst e1
  have g2 := forall2_map_left' _ (Raster.init_spec h2)
  have g3 := fillAllPv_spec h3
  have g4 := Raster.forall2_comp (T := fun (y : Hypo × (PLRData × Pars ℝ)) (z : Hypo × REntry) =>
      ∃ u : Hypo × REntry, Raster.TmuOf (y.1, ⟨y.2.1, none⟩) u ∧ (z.1 = u.1 ∧ fillPv .tmu u.2.data = .ok z.2.data))
    (fun y u z hu hz => ⟨u, hu, hz⟩) g2 g3
  refine Raster.forall2_comp (fun x y z hx hz => ?_) hf g4
  obtain ⟨x1, x2, x3⟩ := hx
  obtain ⟨u, ⟨u1, a, b, u2, u3⟩, z1, z2⟩ := hz
  simp only at u1 u2 u3
  obtain ⟨f1, f2, f3, f4, f5⟩ := fillPv_fixed z2
  obtain ⟨y1, y2, y3⟩ := update_fixed x3
  have w1 : (withFree f x.2.1).hypo = x.2.1.hypo := by cases f <;> rfl
  have w2 : (withFree f x.2.1).hypoFit = x.2.1.hypoFit := by cases f <;> rfl
  have k1 : z.2.data.hypo = x.2.1.hypo := by rw [f1, u3]; exact y1.trans w1
  have k2 : z.2.data.hypoFit = y.2.1.hypoFit := by rw [f3, u3]
  have k3 : z.2.data.freeFit = y.2.1.freeFit := by rw [f2, u3]
  have k4 : Dict.get? z.2.data.testStats "tmu" = some (2 * (a - b)) := by
    rw [f5 "tmu" (by decide) (by decide), u3]; exact Dict.get?_set_self _ _ _
  refine ⟨z1.trans (u1.trans x1), k1, k2.trans (y2.trans w2), k3.trans y3, a, b, ?_, k4, ?_⟩
  · obtain ⟨hf', ff', q1, q2, q3, q4⟩ := u2
    exact ⟨hf', ff', by rw [k2]; exact q1, by rw [k3]; exact q2, q3, q4⟩
  · have hf := fillPv_again z2
    unfold fillPv at hf
    obtain ⟨q, h1, h2⟩ := bind_eq_ok.1 hf
    unfold makeTMu at h1
    obtain ⟨t, h3, h4⟩ := bind_eq_ok.1 h1
    have e4 := Except.ok.inj (ε := PyErr) h4
    have e2 := Except.ok.inj (ε := PyErr) h2
    rw [Dict.getItem_ok, k4] at h3
    cases h3
    unfold pvIs
    rw [← e2]
    simp only
    rw [Dict.get?_set_self, ← e4]
    simp [TMu.asymptoticPv, Dict.values, Dict.keys, k1]

theorem forall2_keys {V : Type} {l : List Hypo} {r : List (Hypo × V)}
    (h : List.Forall₂ (fun hy x => x.1 = hy) l r) : r.map Prod.fst = l := by
  induction h with
  | nil => rfl
  | cons a _ ih => rw [List.map_cons, a, ih]

/-- The results for a list of distinct hypotheses. -/
theorem tmuResults_spec {h : List String → ℕ} {c : CalcSetup} {env : FitEnv ℝ} {hypos : List Hypo}
    {full : HDict (Pars ℝ)} {opt : String} {s s' : OptiMin ℝ} {r : Raster}
    (hw : ∀ a ∈ hypos, (Dict.keys a).Nodup) (hd : hypos.Pairwise (fun a b => ¬ SameHypo a b))
    (hall : ∀ mode, FreeFit.ofString opt = .ok mode → FreeOk c mode s.method)
    (e : tmuResults h c env hypos full opt s = .ok (s', r)) :
    ∃ mode acc f s1, FreeFit.ofString opt = .ok mode ∧
      (mode = .all → f = none) ∧ (mode ≠ .all → ∃ s2 g, commonFit c mode env acc s1 = .ok (s2, g) ∧ f = some g) ∧
      List.Forall₂ (fun hy x => x.1 = hy ∧ StepOut c mode env s.method hy (full.get? h hy) x.2) hypos acc ∧
      List.Forall₂ (FinalOf c f) acc r := by
  obtain ⟨mode, s1, acc, f, acc', r1, h1, h2, h3, h4, h5, h6, h7⟩ := tmuResults_inv e
  have hd' := distinct_not_matches h hw hd
  obtain ⟨_, _, l, hl, hf⟩ := tmuLoop_spec h c mode env full hypos s s1 [] acc (hall mode h1) hd' (by simp) h2
  rw [List.nil_append] at hl
  subst hl
  have hk : acc.map Prod.fst = hypos := forall2_keys (hf.imp fun _ _ hx => hx.1)
  refine ⟨mode, acc, f, s1, h1, h3, h4, hf, finish_spec ?_ (by rw [hk]; exact hd') (by rw [hk]; exact h5) h6 h7⟩
  intro e he
  exact hw e.1 (by rw [← hk]; exact List.mem_map_of_mem he)

theorem forall2_exists_left {α β : Type} {R : α → β → Prop} {l : List α} {l' : List β}
    (h : List.Forall₂ R l l') : ∀ b ∈ l', ∃ a ∈ l, R a b := by
  induction h with
  | nil => simp
  | cons hx _ ih =>
    intro b hb
    rcases List.mem_cons.1 hb with rfl | hb
    · exact ⟨_, by simp, hx⟩
    · obtain ⟨a, ha, hr⟩ := ih b hb; exact ⟨a, by simp [ha], hr⟩

theorem forall2_exists_right {α β : Type} {R : α → β → Prop} {l : List α} {l' : List β}
    (h : List.Forall₂ R l l') : ∀ a ∈ l, ∃ b ∈ l', R a b := by
  induction h with
  | nil => simp
  | cons hx _ ih =>
    intro b hb
    rcases List.mem_cons.1 hb with rfl | hb
    · exact ⟨_, by simp, hx⟩
    · obtain ⟨a, ha, hr⟩ := ih b hb; exact ⟨a, by simp [ha], hr⟩

/-- C59: an unknown `free_fit` option is refused before anything is computed. -/
theorem c59_unknown_option (h : List String → ℕ) (c : CalcSetup) (env : FitEnv ℝ) (hypos : List Hypo)
    (full : HDict (Pars ℝ)) (opt : String) (s : OptiMin ℝ)
    (ho : opt ∉ ["all", "single", "best_fixed_fit"]) :
    tmuResults h c env hypos full opt s = .error .valueError := by
  simp only [List.mem_cons, List.not_mem_nil, or_false, not_or] at ho
  unfold tmuResults FreeFit.ofString
  rw [if_neg ho.1, if_neg ho.2.1, if_neg ho.2.2]
  rfl

/-- C59, `best_fixed_fit`: the reference of every entry is the smallest of the NLLs of the fits at the
hypotheses of the list, so every `tmu` is at least 0 and the value 0 is reached; p-values are the
chi-square tail probabilities of these values. -/
theorem c59_best_fixed_fit (h : List String → ℕ) (c : CalcSetup) (env : FitEnv ℝ) (hypos : List Hypo)
    (full : HDict (Pars ℝ)) (s s' : OptiMin ℝ) (r : Raster)
    (hw : ∀ a ∈ hypos, (Dict.keys a).Nodup) (hd : hypos.Pairwise (fun a b => ¬ SameHypo a b))
    (e : tmuResults h c env hypos full "best_fixed_fit" s = .ok (s', r)) :
    r.map Prod.fst = hypos ∧
    ∃ best, (∃ e0 ∈ r, FitNlls e0.2.data best best) ∧
      ∀ e ∈ r, ∃ a, FitNlls e.2.data a best ∧ best ≤ a ∧ tmuIs e.2.data (2 * (a - best)) ∧
        pvIs e.2.data "pv" (chi2Sf (2 * (a - best)) (Dict.keys e.1).length) := by
  obtain ⟨mode, acc, f, s1, h1, _, h3, h4, h5⟩ := tmuResults_spec hw hd
    (fun mode hm hall => by
      subst hall
      exact absurd (Except.ok.inj (ε := PyErr) hm) (by decide)) e
  have hmode : mode = .bestFixed := (Except.ok.inj (ε := PyErr) h1).symm
  subst hmode
  obtain ⟨s2, g, hc, rfl⟩ := h3 (by decide)
  have hkeys : r.map Prod.fst = hypos := forall2_keys
    (Raster.forall2_comp (fun x y z hx (hz : z.1 = y.1) => hz.trans hx) (h4.imp fun _ _ hx => hx.1)
      (h5.imp fun _ _ hx => hx.1))
  refine ⟨hkeys, ?_⟩
  -- the common fit
  unfold commonFit at hc
  obtain ⟨ns, n1, n2⟩ := bind_eq_ok.1 hc
  rw [mapM_ok_iff] at n1
  cases ns with
  | nil => cases n2
  | cons x l =>
    simp only at n2
    obtain ⟨f, n3, n4⟩ := bind_eq_ok.1 n2
    have e4 := Except.ok.inj (ε := PyErr) n4
    simp only [Prod.mk.injEq] at e4
    obtain ⟨_, rfl⟩ := e4
    have hg := init_nll n3
    set best := argMinBy x l with hb
    have hmin := argMinBy_le l x
    have hmem := argMinBy_mem l x
    rw [← hb] at hmin hmem
    have hnll : ∀ y ns', hypoNllOf y = .ok ns' → ns'.1 = y ∧ ∃ f, y.2.1.hypoFit = some f ∧ f.nll = some ns'.2 := by
      intro y ns' hy
      unfold hypoNllOf at hy
      split at hy
      · cases hy
      · rename_i f hf
        split at hy
        · cases hy
        · rename_i v hv
          have := Except.ok.inj (ε := PyErr) hy
          subst this
          exact ⟨rfl, f, hf, hv⟩
    have hleast : ∀ y ∈ acc, ∃ a f, y.2.1.hypoFit = some f ∧ f.nll = some a ∧ best.2 ≤ a := by
      intro y hy
      obtain ⟨ns', m1, m2⟩ := forall2_exists_right n1 y hy
      obtain ⟨_, f, q1, q2⟩ := hnll y ns' m2
      refine ⟨ns'.2, f, q1, q2, ?_⟩
      rcases List.mem_cons.1 m1 with rfl | m1
      · exact hmin.1
      · exact hmin.2 _ m1
    have hfin : ∀ y ∈ acc, ∀ e ∈ r, FinalOf c (some f) y e → ∃ a, FitNlls e.2.data a best.2 ∧
        tmuIs e.2.data (2 * (a - best.2)) ∧
        pvIs e.2.data "pv" (chi2Sf (2 * (a - best.2)) (Dict.keys y.2.1.hypo).length) ∧
        ∃ f, y.2.1.hypoFit = some f ∧ f.nll = some a := by
      rintro y _ e _ ⟨_, _, k2, k3, a, b, k4, k5, k6⟩
      obtain ⟨hf, ff, q1, q2, q3, q4⟩ := k4
      have hb : b = best.2 := by
        rw [k3] at q2
        simp only [withFree, Option.some.injEq] at q2
        subst q2
        rw [hg] at q4
        exact (Option.some.inj q4).symm
      subst hb
      exact ⟨a, ⟨hf, ff, q1, q2, q3, q4⟩, k5, k6, hf, by rw [← k2]; exact q1, q3⟩
    refine ⟨best.2, ?_, ?_⟩
    · obtain ⟨y, hy, m2⟩ := forall2_exists_left n1 best hmem
      obtain ⟨e1, f, q1, q2⟩ := hnll y _ m2
      obtain ⟨e0, he0, hF⟩ := forall2_exists_right h5 y hy
      obtain ⟨a, k1, _, _, f', k4, k5⟩ := hfin y hy e0 he0 hF
      rw [q1] at k4
      cases k4
      rw [q2] at k5
      have := Option.some.inj k5
      rw [← this] at k1
      exact ⟨e0, he0, k1⟩
    · intro e he
      obtain ⟨y, hy, hF⟩ := forall2_exists_left h5 e he
      obtain ⟨a, k1, k2, k3, f', k4, k5⟩ := hfin y hy e he hF
      obtain ⟨a', f'', w1, w2, w3⟩ := hleast y hy
      rw [w1] at k4
      cases k4
      rw [w2] at k5
      have := Option.some.inj k5
      subst this
      obtain ⟨hy', _, hx⟩ := forall2_exists_left h4 y hy
      refine ⟨a', k1, w3, k2, ?_⟩
      rw [hF.1, hx.1, ← hx.2.hypo]
      exact k3

theorem init_det {m : ParModel ℝ} {p : Pars ℝ} {v : ℝ} {a b : FitResult}
    (h1 : FitResult.init m (some p) (some v) none = .ok a)
    (h2 : FitResult.init m (some p) (some v) none = .ok b) : a = b :=
  Except.ok.inj (ε := PyErr) (h1.symm.trans h2)

theorem freeOk_of_clean {c : CalcSetup} {s : OptiMin ℝ} (hc : CleanUse c { s with bounds := none })
    (mode : FreeFit) : FreeOk c mode s.method := fun _ => ⟨hc.evaluates, hc.free⟩

/-- A `tmu` computation alone, with the ranges of the model as bounds, agrees with what the loop stored. -/
theorem stepOut_alone {c : CalcSetup} {mode : FreeFit} {env : FitEnv ℝ} {hy : Hypo} {fh : Option (Pars ℝ)}
    {s s1 : OptiMin ℝ} {x : PLRData × Pars ℝ} {d : PLRData} (hc : CleanUse c { s with bounds := none })
    (hs : StepOut c mode env s.method hy fh x)
    (h : fastPlr c env hy fh { s with bounds := none } = .ok (s1, d)) :
    d.hypoFit = x.1.hypoFit ∧ (mode = .all → d.freeFit = x.1.freeFit) := by
  obtain ⟨o, ho, hp⟩ := fastPlr_tmu c env hy fh _ s1 d h
  rw [tmu_eq_attempt _ _ _ _ _ _ _ hc.noAlt hc.noRebound] at ho
  obtain ⟨pf, bf, ph, bh, sh, rh, sf, rf, h1, h2, h3, h4, h5, h6, h7, h8, _, _⟩ :=
    attempt_inv _ _ _ _ _ _ _ _ _ ho
  obtain ⟨ff, hf, i1, i2, rfl, _⟩ := plrOf_spec c hy fh o d hp
  have hbf := setPois_bounds c.m c.pois _ pf _ _ bf h1
  simp only [Option.map_none] at hbf h1
  subst hbf
  obtain ⟨ph', bh', sh', rh', v, hf', k1, k2, k3, k4, k5, k6⟩ := hs.fixed
  rw [h2] at k1
  have e1 := Except.ok.inj (ε := PyErr) k1
  simp only [Prod.mk.injEq] at e1
  obtain ⟨rfl, rfl⟩ := e1
  simp only at h3
  rw [h3] at k2
  have e2 := Except.ok.inj (ε := PyErr) k2
  simp only [Prod.mk.injEq] at e2
  obtain ⟨rfl, rfl⟩ := e2
  rw [h5] at k3
  rw [h7] at k4
  cases k3
  have e3 := Option.some.inj k4
  rw [e3] at i2
  refine ⟨by rw [k6, init_det i2 k5], ?_⟩
  rintro rfl
  obtain ⟨pf', sf', rf', vf, qf, ff', j1, j2, j3, j4, j5, j6⟩ := hs.free
  rw [h1] at j1
  have e4 := Except.ok.inj (ε := PyErr) j1
  simp only [Prod.mk.injEq, and_true] at e4
  subst e4
  simp only at h4
  rw [minimizeD_congr c.opt hc.evaluates env c.m s.method pf _ _ none _ none] at h4
  rw [h4] at j2
  have e5 := Except.ok.inj (ε := PyErr) j2
  simp only [Prod.mk.injEq] at e5
  obtain ⟨rfl, rfl⟩ := e5
  rw [h6] at j3
  rw [h8] at j4
  cases j3
  have e6 := Option.some.inj j4
  rw [e6] at i1
  rw [j6, init_det i1 j5]

/-- C59: at each hypothesis of the list, whatever the `free_fit` option, the fit with the hypothesis fixed
is the one of a computation for this hypothesis alone by a fresh minimiser with the ranges of the model
as bounds; with the option `all` the free fit is, too. -/
theorem c59_fits_as_alone (h : List String → ℕ) (c : CalcSetup) (env : FitEnv ℝ) (hypos : List Hypo)
    (full : HDict (Pars ℝ)) (opt : String) (s s' : OptiMin ℝ) (r : Raster)
    (hc : CleanUse c { s with bounds := none })
    (hw : ∀ a ∈ hypos, (Dict.keys a).Nodup) (hd : hypos.Pairwise (fun a b => ¬ SameHypo a b))
    (e : tmuResults h c env hypos full opt s = .ok (s', r)) :
    List.Forall₂ (fun hy e => e.1 = hy ∧ e.2.data.hypo = hy ∧
      ∀ s1 d, fastPlr c env hy (full.get? h hy) { s with bounds := none } = .ok (s1, d) →
        e.2.data.hypoFit = d.hypoFit ∧ (opt = "all" → e.2.data.freeFit = d.freeFit)) hypos r := by
  obtain ⟨mode, acc, f, s1, h1, h2, h3, h4, h5⟩ := tmuResults_spec hw hd
    (fun mode _ => freeOk_of_clean hc mode) e
  refine Raster.forall2_comp (fun hy x e hx hz => ?_) h4 h5
  obtain ⟨x1, x2⟩ := hx
  obtain ⟨z1, z2, z3, z4, _⟩ := hz
  refine ⟨z1.trans x1, z2.trans x2.hypo, fun s1 d hp => ?_⟩
  obtain ⟨k1, k2⟩ := stepOut_alone hc x2 hp
  refine ⟨z3.trans k1.symm, fun ho => ?_⟩
  subst ho
  have hm : mode = .all := (Except.ok.inj (ε := PyErr) h1).symm
  rw [z4, h2 hm, k2 hm]
  rfl

/-- C59: with the option `all` (the default) the results are the ones of the general method of the other
calculators, when the minimiser has no bounds of its own. -/
theorem c59_all_as_general (h : List String → ℕ) (c : CalcSetup) (data : DataEnv) (hypos : List Hypo)
    (full : HDict (Pars ℝ)) (s s1 s2 : OptiMin ℝ) (r r' : Raster)
    (hb : s.bounds = none) (hc : CleanUse c s)
    (hw : ∀ a ∈ hypos, (Dict.keys a).Nodup) (hd : hypos.Pairwise (fun a b => ¬ SameHypo a b))
    (e : tmuResults h c data.fit hypos full "all" s = .ok (s1, r))
    (e' : fastResults h c .tmu data hypos full s = .ok (s2, r')) :
    List.Forall₂ (fun x x' => x.1 = x'.1 ∧ x.2.data.hypo = x'.2.data.hypo ∧
      x.2.data.hypoFit = x'.2.data.hypoFit ∧ x.2.data.freeFit = x'.2.data.freeFit ∧
      Dict.get? x.2.data.testStats "tmu" = Dict.get? x'.2.data.testStats "tmu" ∧
      Dict.get? x.2.data.pvs "pv" = Dict.get? x'.2.data.pvs "pv") r r' := by
  have hs : { s with bounds := none } = s := by cases s; simp only at hb; subst hb; rfl
  obtain ⟨mode, acc, f, s1, h1, h2, h3, h4, h5⟩ := tmuResults_spec hw hd
    (fun mode _ => freeOk_of_clean (by rw [hs]; exact hc) mode) e
  have g1 := Raster.forall2_comp (T := fun (hy : Hypo) (e : Hypo × REntry) => ∃ x, x.1 = hy ∧
      StepOut c mode data.fit s.method hy (full.get? h hy) x.2 ∧ FinalOf c f x e)
    (fun hy x e hx hz => ⟨x, hx.1, hx.2, hz⟩) h4 h5
  have g2 := fastResults_spec h c .tmu data hypos full s s2 r' hc hw hd e'
  have hpv := c58_tmu_values h c data hypos full s s2 r' e'
  have hm : mode = .all := (Except.ok.inj (ε := PyErr) h1).symm
  subst hm
  have hf := h2 rfl
  subst hf
  have key : ∀ (hypos : List Hypo) (r r' : Raster),
      List.Forall₂ (fun hy (e : Hypo × REntry) => ∃ x, x.1 = hy ∧
        StepOut c .all data.fit s.method hy (full.get? h hy) x.2 ∧ FinalOf c none x e) hypos r →
      List.Forall₂ (fun hy e => ∃ s1 d, fastQ c .tmu data hy (full.get? h hy) s = .ok (s1, d) ∧
        FromAlone .tmu hy d e) hypos r' →
      List.Forall₂ (fun x x' => ∃ hy, (∃ y, y.1 = hy ∧
        StepOut c .all data.fit s.method hy (full.get? h hy) y.2 ∧ FinalOf c none y x) ∧
        ∃ s1 d, fastQ c .tmu data hy (full.get? h hy) s = .ok (s1, d) ∧ FromAlone .tmu hy d x') r r' := by
    intro hypos r r' k1 k2
    induction k1 generalizing r' with
    | nil => cases k2; exact .nil
    | cons a _ ih => cases k2 with | cons b hb => exact .cons ⟨_, a, b⟩ (ih _ hb)
  have g3 := key hypos r r' g1 g2
  have g4 : List.Forall₂ (fun x x' => (∃ hy, (∃ y, y.1 = hy ∧
        StepOut c .all data.fit s.method hy (full.get? h hy) y.2 ∧ FinalOf c none y x) ∧
        ∃ s1 d, fastQ c .tmu data hy (full.get? h hy) s = .ok (s1, d) ∧ FromAlone .tmu hy d x') ∧ x' ∈ r') r r' := by
    clear g1 g2 e e' h4 h5
    have : ∀ R : Raster, (∀ x ∈ r', x ∈ R) → List.Forall₂ (fun x x' => (∃ hy, (∃ y, y.1 = hy ∧
        StepOut c .all data.fit s.method hy (full.get? h hy) y.2 ∧ FinalOf c none y x) ∧
        ∃ s1 d, fastQ c .tmu data hy (full.get? h hy) s = .ok (s1, d) ∧ FromAlone .tmu hy d x') ∧ x' ∈ R) r r' := by
      intro R hR
      clear hpv
      induction g3 with
      | nil => exact .nil
      | cons a _ ih => exact .cons ⟨a, hR _ (by simp)⟩ (ih (fun x hx => hR x (by simp [hx])))
    exact this r' (fun _ hx => hx)
  refine g4.imp ?_
  rintro x x' ⟨⟨hy, ⟨y, y1, y2, y3⟩, u1, d, hq, hfa⟩, hx'⟩
  obtain ⟨z1, z2, z3, z4, a, b, z5, z6, z7⟩ := y3
  obtain ⟨w1, a', b', w2, w3, w4, w5, w6⟩ := hfa
  obtain ⟨t1, d1, ae, aa, d2, q1, q2, q3, q4, q5⟩ := (fastQ_inv c .tmu data hy _ s u1 d).1 hq
  obtain ⟨k1, k2⟩ := stepOut_alone (s := s) (by rw [hs]; exact hc) y2 (by rw [hs]; exact q1)
  unfold PLRData.setAsimov at q4
  obtain ⟨A, _, q6⟩ := bind_eq_ok.1 q4
  have e2 := Except.ok.inj (ε := PyErr) q6
  obtain ⟨f1, f2, f3, f4, f5⟩ := fillPv_fixed q5
  obtain ⟨v1, v2, v3, v4, v5⟩ := fillPv_fixed w6
  simp only at v1 v2 v3
  have m1 : x'.2.data.hypoFit = y.2.1.hypoFit := by rw [v3, f3, ← e2]; exact k1
  have m2 : x'.2.data.freeFit = y.2.1.freeFit := by rw [v2, f2, ← e2]; exact k2 rfl
  have m3 : x.2.data.freeFit = y.2.1.freeFit := z4
  have m4 : x'.2.data.hypo = hy := v1.trans w5
  have n : FitNlls x'.2.data a b := by
    obtain ⟨hf, ff, o1, o2, o3, o4⟩ := z5
    exact ⟨hf, ff, by rw [m1, ← z3]; exact o1, by rw [m2, ← m3]; exact o2, o3, o4⟩
  have n' : FitNlls x'.2.data a' b' := by
    obtain ⟨hf, ff, o1, o2, o3, o4⟩ := w2
    exact ⟨hf, ff, by rw [v3]; exact o1, by rw [v2]; exact o2, o3, o4⟩
  obtain ⟨rfl, rfl⟩ := PLRData.HasNlls.unique n n'
  have ht : Dict.get? x'.2.data.testStats "tmu" = some (2 * (a - b)) := by
    rw [v5 "tmu" (by decide) (by decide)]; exact Dict.get?_set_self _ _ _
  obtain ⟨t, ht', hpv'⟩ := hpv x' hx'
  have et : t = 2 * (a - b) := Option.some.inj (ht'.symm.trans ht)
  subst et
  refine ⟨z1.trans (y1.trans w1.symm), ?_, z3.trans m1.symm, m3.trans m2.symm, ?_, ?_⟩
  · rw [z2, m4, y2.hypo]
  · rw [ht]; exact z6
  · have : Dict.get? x.2.data.pvs "pv" = _ := z7
    rw [this, y2.hypo]
    have : Dict.get? x'.2.data.pvs "pv" = _ := hpv'
    rw [this, m4]

theorem tmuStep_bounds (h : List String → ℕ) (c : CalcSetup) (mode : FreeFit) (env : FitEnv ℝ)
    (full : HDict (Pars ℝ)) (hy : Hypo) (s : OptiMin ℝ) (b : Option (Dict (ParBound ℝ))) (r : TmuAcc) :
    tmuStep h c mode env full hy { s with bounds := b } r = tmuStep h c mode env full hy s r := rfl

/-- C59 (F46): bounds that the user gave to the minimiser have no effect on the results, since each fit is
set up without them. -/
theorem c59_user_bounds_ignored (h : List String → ℕ) (c : CalcSetup) (env : FitEnv ℝ) (hypos : List Hypo)
    (full : HDict (Pars ℝ)) (opt : String) (s : OptiMin ℝ) (b : Option (Dict (ParBound ℝ))) :
    outcome (tmuResults h c env hypos full opt { s with bounds := b }) =
      outcome (tmuResults h c env hypos full opt s) := by
  unfold tmuResults
  cases FreeFit.ofString opt with
  | error e => rfl
  | ok mode =>
    simp only [bind_ok]
    cases hypos with
    | nil => cases mode <;> rfl
    | cons hy hs => rfl

/-- Both one-dimensional fits at two hypotheses. -/
noncomputable def oneSetup : CalcSetup where
  opt := fun _ _ _ _ => ⟨[[1]], [1], 0, true⟩
  m := ⟨["a"], []⟩
  pois := [⟨"a", some 0, some 10⟩]
  ref := ⟨[0], []⟩

/-- NLL `(a - 1)^2`. -/
noncomputable def oneEnv : FitEnv ℝ where
  profile := fun p => match p.pois, p.nps with
    | [_], [] => .ok p
    | _, _ => .error .valueError
  nll := fun p => match p.pois with
    | [x] => .ok ((x - 1) * (x - 1))
    | _ => .error .indexError

theorem one_bounds : argBounds oneSetup.pois none = [("a", (⟨"a", some 0, some 10⟩ : ParBound ℝ))] := rfl

theorem one_set (w v : ℝ) (h0 : 0 ≤ v) (h1 : v ≤ 10) (b : Option (List (ParBound ℝ)))
    (hb : b = none ∨ b = some [⟨"a", some 0, some 10⟩]) :
    setPois oneSetup.m oneSetup.pois ⟨[w], []⟩ b (some [("a", v)]) false =
      .ok (⟨[v], []⟩, [("a", ⟨"a", some 0, some 10⟩)]) := by
  have e1 : setHypo oneSetup.m [("a", v)] ⟨[w], []⟩ = .ok ⟨[v], []⟩ := rfl
  have e2 : buildBounds oneSetup.pois b (some [("a", v)]) false = .ok [("a", ⟨"a", some 0, some 10⟩)] := by
    rcases hb with rfl | rfl <;> rfl
  unfold setPois
  simp only [Option.getD_some]
  rw [e1, bind_ok, e2, bind_ok]
  have e3 : Pars.get oneSetup.m (⟨[v], []⟩ : Pars ℝ) "a" = .ok v := rfl
  simp only [Dict.values, List.map_cons, List.map_nil, clampInit, e3, bind_ok]
  rw [if_pos (by simp [ParBound.testValue, h0, h1])]
  rfl

theorem one_set_fix (w v : ℝ) :
    setPois oneSetup.m oneSetup.pois ⟨[w], []⟩ (some [⟨"a", some 0, some 10⟩]) (some [("a", v)]) true =
      .ok (⟨[v], []⟩, [("a", ⟨"a", some v, some v⟩)]) := by
  have e1 : setHypo oneSetup.m [("a", v)] ⟨[w], []⟩ = .ok ⟨[v], []⟩ := rfl
  have e2 : buildBounds oneSetup.pois (some [⟨"a", some 0, some 10⟩]) (some [("a", v)]) true
    = .ok [("a", ⟨"a", some v, some v⟩)] := rfl
  unfold setPois
  simp only [Option.getD_some]
  rw [e1, bind_ok, e2, bind_ok]
  have e3 : Pars.get oneSetup.m (⟨[v], []⟩ : Pars ℝ) "a" = .ok v := rfl
  simp only [Dict.values, List.map_cons, List.map_nil, clampInit, e3, bind_ok]
  rw [if_pos (by simp [ParBound.testValue])]
  rfl

theorem one_fix_fit (v : ℝ) :
    minimizeD oneSetup.opt oneEnv oneSetup.m
      { method := "scalar", initPois := ⟨[v], []⟩, bounds := [("a", ⟨"a", some v, some v⟩)] } =
    .ok ({ method := "", initPois := ⟨[v], []⟩, bounds := [("a", ⟨"a", some v, some v⟩)],
           minNll := some ((v - 1) * (v - 1)), minPars := some ⟨[v], []⟩ }, .nll ((v - 1) * (v - 1))) := by
  have e1 : freeBounds [("a", (⟨"a", some v, some v⟩ : ParBound ℝ))] = .ok [] := by
    simp [freeBounds, Dict.values, ParBound.isFree]
  unfold minimizeD optRun minimize
  simp only [e1, bind_ok, pure_ok]
  rfl

theorem one_free_fit (v : ℝ) (o : Option ℝ) (p : Option (Pars ℝ)) :
    minimizeD oneSetup.opt oneEnv oneSetup.m
      { method := "scalar", initPois := ⟨[v], []⟩, bounds := [("a", ⟨"a", some 0, some 10⟩)],
        minNll := o, minPars := p } =
    .ok ({ method := "scalar", initPois := ⟨[v], []⟩, bounds := [("a", ⟨"a", some 0, some 10⟩)],
           minNll := some 0, minPars := some ⟨[1], []⟩, minPois := [1] }, .nll 0) := by
  have e1 : freeBounds [("a", (⟨"a", some 0, some 10⟩ : ParBound ℝ))] = .ok [(0, ⟨"a", some 0, some 10⟩)] := by
    simp [freeBounds, Dict.values, ParBound.isFree]
  have e3 : Pars.get oneSetup.m (⟨[v], []⟩ : Pars ℝ) "a" = .ok v := rfl
  unfold minimizeD optRun minimize
  simp [e1, bind_ok, pure_ok, e3]
  rfl

/-- The minimiser of the examples, new or after a fit. -/
def OneSt (s : OptiMin ℝ) : Prop := s.method = "scalar" ∧ s.altMethod = none ∧ s.rebound = 0 ∧
  (s.bounds = none ∨ s.bounds = some [("a", ⟨"a", some 0, some 10⟩)])

theorem one_init (v n : ℝ) : FitResult.init oneSetup.m (some ⟨[v], []⟩) (some n) none =
    .ok ⟨[("a", .new "a" (some v))], some n⟩ := rfl

theorem one_update (v : ℝ) (o : Option (Pars ℝ)) :
    PLRData.update oneSetup.m ⟨[("a", v)], none, none, [], [], o⟩ = .ok ⟨[("a", v)], none, none, [], [], o⟩ := by
  simp [PLRData.update, Dict.keys, oneSetup]

theorem one_plr (s : OptiMin ℝ) (hs : OneSt s) (v : ℝ) (h0 : 0 ≤ v) (h1 : v ≤ 10) (o : Option (Pars ℝ)) (w : ℝ)
    (ho : o.getD oneSetup.ref = ⟨[w], []⟩) :
    ∃ s', OneSt s' ∧ fastPlr oneSetup oneEnv [("a", v)] o s = .ok (s',
      ⟨[("a", v)], some ⟨[("a", .new "a" (some 1))], some 0⟩,
        some ⟨[("a", .new "a" (some v))], some ((v - 1) * (v - 1))⟩,
        [("tmu", 2 * ((v - 1) * (v - 1)))], [], o⟩) := by
  obtain ⟨hm, ha, hr, hb⟩ := hs
  have ht : ∃ s', OneSt s' ∧ s.tmu oneSetup.opt oneSetup.m oneSetup.pois oneEnv ⟨[w], []⟩ [("a", v)] =
      .ok (s', ⟨2 * ((v - 1) * (v - 1)), (v - 1) * (v - 1), 0, ⟨[v], []⟩, ⟨[1], []⟩⟩) := by
    rw [tmu_eq_attempt _ _ _ _ _ _ _ ha hr]
    unfold OptiMin.attempt
    rw [one_set w v h0 h1 _ (by rcases hb with hb | hb <;> rw [hb] <;> simp [Dict.values]), bind_ok]
    simp only [Dict.values, List.map_cons, List.map_nil]
    rw [one_set_fix w v, bind_ok, hm]
    simp only
    rw [one_fix_fit v, bind_ok, one_free_fit v, bind_ok]
    simp only [pure_ok]
    have htv : tmuValue ((v - 1) * (v - 1)) 0 = 2 * ((v - 1) * (v - 1)) := by
      rw [tmuValue, sub_zero]
      rw [if_neg (not_lt.2 (by nlinarith [mul_self_nonneg (v - 1)]))]
    rw [htv]
    refine ⟨_, ?_, rfl⟩
    exact ⟨rfl, ha, hr, Or.inr rfl⟩
  obtain ⟨s', hs', ht⟩ := ht
  refine ⟨s', hs', ?_⟩
  unfold fastPlr
  rw [one_update, bind_ok]
  rw [ho]
  rw [ht, bind_ok]
  simp only
  rw [one_init, bind_ok, one_init, bind_ok]
  simp [PLRData.update, Dict.keys, Dict.set, oneSetup]

theorem one_q (k : CalcKind) (s : OptiMin ℝ) (hs : OneSt s) (v : ℝ) (h0 : 1 < v) (h1 : v ≤ 10) (o : Option (Pars ℝ))
    (w : ℝ) (ho : o.getD oneSetup.ref = ⟨[w], []⟩) :
    ∃ s' d, OneSt s' ∧ fastQ oneSetup k ⟨oneEnv, .ok oneEnv⟩ [("a", v)] o s = .ok (s', d) ∧
      FitNlls d ((v - 1) * (v - 1)) 0 := by
  obtain ⟨s1, e1, p1⟩ := one_plr s hs v (by linarith) h1 o w ho
  obtain ⟨s2, e2, p2⟩ := one_plr s1 e1 v (by linarith) h1 o w ho
  have hpos : 0 < 2 * ((v - 1) * (v - 1)) := by nlinarith
  have : ∃ d', fillPv k
      ⟨[("a", v)], some ⟨[("a", .new "a" (some 1))], some 0⟩,
        some ⟨[("a", .new "a" (some v))], some ((v - 1) * (v - 1))⟩,
        [("tmu", 2 * ((v - 1) * (v - 1))), ("tmu_A0", 2 * ((v - 1) * (v - 1)))], [], o⟩ = .ok d' := by
    cases k with
    | tmu => exact ⟨_, rfl⟩
    | qmu =>
      simp [fillPv, makeQMu, calcPoi, bestOf, Dict.keys, Dict.getItem, Dict.get?, FitPar.new,
        QMu.asymptoticPv, QMu.asymptoticCls, QMu.asymptoticClb, clsOf, QMu.ncp, QMu.init,
        show v ≠ 0 by linarith]
    | qmutilda =>
      simp [fillPv, makeQMuTilda, calcPoi, bestOf, Dict.keys, Dict.getItem, Dict.get?, FitPar.new,
        QMuTilda.asymptoticPv, QMuTilda.asymptoticCls, QMuTilda.asymptoticClb, clsOf, QMu.ncp, QMuTilda.init, QMu.init,
        show v ≠ 0 by linarith, QMuTilda.threshold, QMuTilda.value, h0, not_lt.2 hpos.le, hpos.ne']
  obtain ⟨d', hd'⟩ := this
  obtain ⟨_, f2, f3, _⟩ := fillPv_fixed hd'
  refine ⟨s2, d', e2, (fastQ_inv _ _ _ _ _ _ _ _).2 ⟨s1, _, oneEnv, _, _, p1, rfl, p2, rfl, ?_⟩,
    _, _, f3, f2, rfl, rfl⟩
  exact hd'

theorem init_succeeds (h : List String → ℕ) (m : ParModel ℝ) (r : Raster)
    (hn : ∀ e ∈ r, ∃ a b, e.2.data.HasNlls a b) (hw : ∀ e ∈ r, e.1.WF)
    (hp : ∀ e ∈ r, ∀ n ∈ Dict.keys e.1, n ∈ m.pois) : ∃ r', Raster.init h m r = .ok r' := by
  obtain ⟨r1, h1⟩ := Raster.setGlobalBestFit_ok h r hn hw
  have hb : Raster.bestFitStage h true r = .ok r1 := h1
  have hf := Raster.bestFitStage_spec hb
  obtain ⟨r2, h2⟩ := Raster.computeTmu_succeeds r1 (fun e he => by
    obtain ⟨x, hx, e1, e2⟩ := forall2_exists_left hf e he
    rw [e2]; exact hn x hx)
  have ht := Raster.computeTmu_spec h2
  refine ⟨r2, ?_⟩
  unfold Raster.init
  rw [hb, bind_ok]
  simp only [Raster.tmuStage, if_true]
  rw [h2, bind_ok]
  unfold Raster.setPois
  rw [if_pos]
  have hk : ∀ k ∈ r2.map Prod.fst, ∀ n ∈ Dict.keys k, n ∈ m.pois := by
    intro k hk n hn'
    obtain ⟨e, he, rfl⟩ := List.mem_map.1 hk
    obtain ⟨x, hx, hx1⟩ := forall2_exists_left ht e he
    obtain ⟨y, hy, hy1⟩ := forall2_exists_left hf x hx
    rw [hx1.1, hy1.1] at hn'
    exact hp y hy n hn'
  revert hk
  generalize r2.map Prod.fst = ks
  intro hk n hn'
  match ks with
  | [] => simp [Raster.haveCompatiblePois] at hn'
  | [_] => simp [Raster.haveCompatiblePois] at hn'
  | a :: b :: l =>
    simp only [Raster.haveCompatiblePois] at hn'
    split_ifs at hn'
    · simp at hn'
    · exact hk a (by simp) n hn'

theorem fillAll_succeeds (k : CalcKind) (r : Raster) (hn : ∀ e ∈ r, ∃ d, fillPv k e.2.data = .ok d) :
    ∃ r', fillAllPv k r = .ok r' := by
  unfold fillAllPv
  induction r with
  | nil => exact ⟨[], rfl⟩
  | cons e r ih =>
    obtain ⟨r', hr⟩ := ih (fun x hx => hn x (by simp [hx]))
    obtain ⟨d, hd⟩ := hn e (by simp)
    rw [List.mapM_cons, fillEntry, hd, bind_ok]
    simp only [pure_ok, bind_ok, hr]
    exact ⟨_, rfl⟩

theorem one_clean (s : OptiMin ℝ) (hs : OneSt s) : CleanUse oneSetup s where
  evaluates := by intro _ _ _ _; simp [oneSetup]
  noAlt := hs.2.1
  noRebound := hs.2.2.1
  free := by
    have : argBounds oneSetup.pois (s.bounds.map Dict.values) = [("a", ⟨"a", some 0, some 10⟩)] := by
      rcases hs.2.2.2 with h | h <;> rw [h] <;> rfl
    rw [this]
    exact ⟨[(0, ⟨"a", some 0, some 10⟩)], by simp [freeBounds, Dict.values, ParBound.isFree], by simp,
      fun _ => rfl⟩

theorem one_distinct : [[("a", (2:ℝ))], [("a", 3)]].Pairwise (fun a b => ¬ SameHypo a b) := by
  simp only [List.pairwise_cons, List.mem_singleton, forall_eq, List.not_mem_nil, false_implies, implies_true,
    List.Pairwise.nil, and_true]
  intro hc
  have := hc "a"
  simp [Dict.get?] at this

/-- `compute_fast_results` for two hypotheses, each calculator, start points for all, some or none of them. -/
theorem one_fastResults (k : CalcKind) (full : HDict (Pars ℝ))
    (hfull : ∀ v : ℝ, ∃ w, (full.get? (fun _ => 0) [("a", v)]).getD oneSetup.ref = ⟨[w], []⟩) :
    CleanUse oneSetup { method := "scalar", tmuDebug := 0 } ∧
    ∃ s' r, fastResults (fun _ => 0) oneSetup k ⟨oneEnv, .ok oneEnv⟩ [[("a", 2)], [("a", 3)]] full
      { method := "scalar", tmuDebug := 0 } = .ok (s', r) := by
  obtain ⟨w2, hw2⟩ := hfull 2
  obtain ⟨w3, hw3⟩ := hfull 3
  have hs : OneSt { method := "scalar", tmuDebug := 0 } := ⟨rfl, rfl, rfl, Or.inl rfl⟩
  refine ⟨one_clean _ hs, ?_⟩
  obtain ⟨s1, d1, hs1, q1, n1⟩ := one_q k _ hs 2 (by norm_num) (by norm_num) _ w2 hw2
  obtain ⟨s2, d2, hs2, q2, n2⟩ := one_q k s1 hs1 3 (by norm_num) (by norm_num) _ w3 hw3
  have hl : fastLoop (fun _ => 0) oneSetup k ⟨oneEnv, .ok oneEnv⟩ full [[("a", 2)], [("a", 3)]]
      { method := "scalar", tmuDebug := 0 } [] = .ok (s2, [([("a", 2)], ⟨d1, none⟩), ([("a", 3)], ⟨d2, none⟩)]) := by
    simp only [fastLoop, q1, bind_ok, q2]
    congr 2
    rw [HDict.set_append, HDict.set_append]
    · rfl
    · simp
    · intro kv hkv
      simp only [HDict.set, List.mem_singleton] at hkv
      subst hkv
      rintro ⟨_, hc⟩
      have := hc.2 ("a", 2) (by simp)
      simp [Dict.get?] at this
  have hfact : ∀ e ∈ ([([("a", 2)], ⟨d1, none⟩), ([("a", 3)], ⟨d2, none⟩)] : Raster), ∃ a b,
      FitNlls e.2.data a b ∧ tmuIs e.2.data (2 * (a - b)) ∧ fillPv k e.2.data = .ok e.2.data := by
    intro e he
    simp only [List.mem_cons, List.not_mem_nil, or_false] at he
    rcases he with rfl | rfl
    · obtain ⟨a, b, k1, k2, _, k4⟩ := fastQ_facts _ k _ _ _ _ _ _ hs.2.1 hs.2.2.1 q1
      obtain ⟨rfl, rfl⟩ := PLRData.HasNlls.unique k1 n1
      rw [max_eq_right (by norm_num)] at k2
      exact ⟨_, _, k1, k2, k4⟩
    · obtain ⟨a, b, k1, k2, _, k4⟩ := fastQ_facts _ k _ _ _ _ _ _ hs1.2.1 hs1.2.2.1 q2
      obtain ⟨rfl, rfl⟩ := PLRData.HasNlls.unique k1 n2
      rw [max_eq_right (by norm_num)] at k2
      exact ⟨_, _, k1, k2, k4⟩
  obtain ⟨r1, h1⟩ := init_succeeds (fun _ => 0) oneSetup.m _ (fun e he => by
      obtain ⟨a, b, k1, _⟩ := hfact e he; exact ⟨a, b, k1⟩) (fun e he => by
      simp only [List.mem_cons, List.not_mem_nil, or_false] at he
      rcases he with rfl | rfl <;> simp [Hypo.WF, Dict.keys]) (fun e he => by
      simp only [List.mem_cons, List.not_mem_nil, or_false] at he
      rcases he with rfl | rfl <;> simp [Dict.keys, oneSetup])
  obtain ⟨r2, h2⟩ := fillAll_succeeds k r1 (fun e he => by
    obtain ⟨x, hx, _, a, b, k1, k2⟩ := forall2_exists_left (Raster.init_spec h1) e he
    obtain ⟨a', b', k3, k4, k5⟩ := hfact x hx
    obtain ⟨rfl, rfl⟩ := PLRData.HasNlls.unique k1 k3
    rw [Dict.set_same _ _ _ k4] at k2
    exact ⟨_, by rw [k2]; exact k5⟩)
  exact ⟨s2, r2, by unfold fastResults; rw [hl, bind_ok]; simp only; rw [h1, bind_ok, h2, bind_ok]; rfl⟩

/-- Non-vacuity of the theorems on `compute_fast_results`: two hypotheses, each calculator. -/
example (k : CalcKind) : CleanUse oneSetup { method := "scalar", tmuDebug := 0 } ∧
    ∃ s' r, fastResults (fun _ => 0) oneSetup k ⟨oneEnv, .ok oneEnv⟩ [[("a", 2)], [("a", 3)]] []
      { method := "scalar", tmuDebug := 0 } = .ok (s', r) :=
  one_fastResults k [] fun _ => ⟨0, rfl⟩

/-- The fit result at a value of the POI. -/
noncomputable def oneFit (v n : ℝ) : FitResult := ⟨[("a", .new "a" (some v))], some n⟩

/-- What the loop stores. -/
noncomputable def oneAcc (mode : FreeFit) (v : ℝ) : PLRData × Pars ℝ :=
  (⟨[("a", v)], if mode = .all then some (oneFit 1 0) else none, some (oneFit v ((v - 1) * (v - 1))), [], [], none⟩,
    ⟨[v], []⟩)

theorem one_step (mode : FreeFit) (s : OptiMin ℝ) (hs : OneSt s) (v : ℝ) (h0 : 0 ≤ v) (h1 : v ≤ 10) (r : TmuAcc) :
    ∃ s', OneSt s' ∧ tmuStep (fun _ => 0) oneSetup mode oneEnv [] [("a", v)] s r =
      .ok (s', r.set (fun _ => 0) [("a", v)] (oneAcc mode v)) := by
  obtain ⟨hm, ha, hr, hb⟩ := hs
  unfold tmuStep
  simp only [HDict.get?, Option.getD_none]
  rw [one_update, bind_ok, show oneSetup.ref = ⟨[0], []⟩ from rfl, one_set 0 v h0 h1 none (Or.inl rfl), bind_ok]
  simp only [Dict.values, List.map_cons, List.map_nil]
  rw [one_set_fix 0 v, bind_ok, hm]
  simp only
  rw [one_fix_fit v, bind_ok]
  simp only [MinSt.result, bind_ok]
  rw [one_init, bind_ok]
  cases mode with
  | all =>
    simp only
    rw [one_free_fit v, bind_ok]
    simp only [bind_ok]
    rw [one_init, bind_ok]
    refine ⟨_, ?_, rfl⟩
    exact ⟨rfl, ha, hr, Or.inr rfl⟩
  | single =>
    refine ⟨_, ?_, rfl⟩
    exact ⟨rfl, ha, hr, Or.inr rfl⟩
  | bestFixed =>
    refine ⟨_, ?_, rfl⟩
    exact ⟨rfl, ha, hr, Or.inr rfl⟩

theorem one_no_match : ¬ Hypo.matches (fun _ => 0) [("a", 2)] [("a", 3)] := by
  rintro ⟨_, hc⟩
  have := hc.2 ("a", 2) (by simp)
  simp [Dict.get?] at this

theorem one_loop (mode : FreeFit) : ∃ s', OneSt s' ∧
    tmuLoop (fun _ => 0) oneSetup mode oneEnv [] [[("a", 2)], [("a", 3)]]
      { method := "scalar", tmuDebug := 0 } [] =
    .ok (s', [([("a", 2)], oneAcc mode 2), ([("a", 3)], oneAcc mode 3)]) := by
  obtain ⟨s1, hs1, e1⟩ := one_step mode { method := "scalar", tmuDebug := 0 }
    ⟨rfl, rfl, rfl, Or.inl rfl⟩ 2 (by norm_num) (by norm_num) []
  obtain ⟨s2, hs2, e2⟩ := one_step mode s1 hs1 3 (by norm_num) (by norm_num)
    (HDict.set (fun _ => 0) [] [("a", 2)] (oneAcc mode 2))
  refine ⟨s2, hs2, ?_⟩
  simp only [tmuLoop, e1, bind_ok, e2]
  congr 2
  simp [HDict.set, one_no_match]

/-- Non-vacuity of the theorems on the `free_fit` options. -/
theorem one_tmuResults (opt : String) (ho : opt = "all" ∨ opt = "best_fixed_fit") :
    ∃ s' r, tmuResults (fun _ => 0) oneSetup oneEnv [[("a", 2)], [("a", 3)]] [] opt
      { method := "scalar", tmuDebug := 0 } = .ok (s', r) := by
  obtain ⟨mode, hmode, f, b, hf⟩ : ∃ mode, FreeFit.ofString opt = .ok mode ∧ ∃ f b, ∀ s,
      freeStage oneSetup mode oneEnv [([("a", 2)], oneAcc mode 2), ([("a", 3)], oneAcc mode 3)] s = .ok (s, f) ∧
      ∀ v, (withFree f (oneAcc mode v).1).freeFit = some b ∧ b.nll ≠ none := by
    rcases ho with rfl | rfl
    · exact ⟨.all, rfl, none, oneFit 1 0, fun s => ⟨rfl, fun v => ⟨rfl, by simp [oneFit]⟩⟩⟩
    · refine ⟨.bestFixed, rfl, some (oneFit 2 1), oneFit 2 1, fun s => ⟨?_, fun v => ⟨rfl, by simp [oneFit]⟩⟩⟩
      have : argMinBy ((([("a", 2)], oneAcc .bestFixed 2), (2 - 1) * (2 - 1)) : (Hypo × (PLRData × Pars ℝ)) × ℝ)
          [(([("a", 3)], oneAcc .bestFixed 3), (3 - 1) * (3 - 1))] = ((([("a", 2)], oneAcc .bestFixed 2), 1)) := by
        norm_num [argMinBy]
      simp only [freeStage, commonFit, List.mapM_cons, List.mapM_nil, hypoNllOf, oneAcc, oneFit, bind_ok, pure_ok]
      simp only [oneAcc, oneFit] at this
      rw [this]
      rfl
  obtain ⟨s1, _, hl⟩ := one_loop mode
  have hu : ∀ v, ∃ d, PLRData.update oneSetup.m (withFree f (oneAcc mode v).1) = .ok d := by
    intro v
    obtain ⟨k1, k2⟩ := (hf s1).2 v
    obtain ⟨n, hn⟩ := Option.ne_none_iff_exists'.1 k2
    have h1 : (withFree f (oneAcc mode v).1).hypo = [("a", v)] := by cases f <;> rfl
    have h2 : (withFree f (oneAcc mode v).1).hypoFit = some (oneFit v ((v - 1) * (v - 1))) := by cases f <;> rfl
    have h3 : (withFree f (oneAcc mode v).1).testStats = [] := by cases f <;> rfl
    unfold PLRData.update
    rw [if_pos (by rw [h1]; simp [Dict.keys, oneSetup]), if_pos (by rw [k1, h2, h3]; simp [Dict.keys])]
    exact ⟨_, PLRData.computeTmu_ok.2 ⟨_, n, ⟨_, _, h2, k1, rfl, hn⟩, rfl⟩⟩
  obtain ⟨d2, u2⟩ := hu 2
  obtain ⟨d3, u3⟩ := hu 3
  have hfin : tmuFinish (fun _ => 0) oneSetup f [[("a", 2)], [("a", 3)]]
      [([("a", 2)], oneAcc mode 2), ([("a", 3)], oneAcc mode 3)] =
      .ok [([("a", 2)], (d2, ⟨[2], []⟩)), ([("a", 3)], (d3, ⟨[3], []⟩))] := by
    have hm : ∀ v : ℝ, Hypo.matches (fun _ => 0) [("a", v)] [("a", v)] := fun v =>
      Hypo.matches_refl _ (by simp [Hypo.WF, Dict.keys])
    have g1 : HDict.getItem (fun _ => 0) [([("a", 2)], oneAcc mode 2), ([("a", 3)], oneAcc mode 3)] [("a", 2)] =
        .ok (oneAcc mode 2) := by simp [HDict.getItem, HDict.get?, hm]
    have g2 : ∀ x, HDict.getItem (fun _ => 0) [([("a", 2)], x), ([("a", 3)], oneAcc mode 3)] [("a", 3)] =
        .ok (oneAcc mode 3) := by intro x; simp [HDict.getItem, HDict.get?, hm, one_no_match]
    unfold tmuFinish
    rw [g1, bind_ok]
    rw [u2, bind_ok]
    rw [tmuFinish]
    have e2 : HDict.set (fun _ => 0) [([("a", 2)], oneAcc mode 2), ([("a", 3)], oneAcc mode 3)] [("a", 2)]
        (d2, (oneAcc mode 2).2) = [([("a", 2)], (d2, (oneAcc mode 2).2)), ([("a", 3)], oneAcc mode 3)] := by
      simp [HDict.set, hm]
    rw [e2, g2, bind_ok]
    rw [u3, bind_ok]
    simp [tmuFinish, HDict.set, hm, one_no_match, oneAcc]
  have key : ∀ v d, PLRData.update oneSetup.m (withFree f (oneAcc mode v).1) = .ok d → ∃ a b, d.HasNlls a b := by
    intro v d hd
    obtain ⟨k1, k2⟩ := (hf s1).2 v
    obtain ⟨n, hn⟩ := Option.ne_none_iff_exists'.1 k2
    have h2 : (withFree f (oneAcc mode v).1).hypoFit = some (oneFit v ((v - 1) * (v - 1))) := by cases f <;> rfl
    obtain ⟨_, y2, y3⟩ := update_fixed hd
    exact ⟨_, n, _, _, y2.trans h2, y3.trans k1, rfl, hn⟩
  obtain ⟨r1, h1⟩ := init_succeeds (fun _ => 0) oneSetup.m
    [([("a", 2)], ⟨d2, none⟩), ([("a", 3)], ⟨d3, none⟩)] (fun e he => by
      simp only [List.mem_cons, List.not_mem_nil, or_false] at he
      rcases he with rfl | rfl
      · exact key 2 d2 u2
      · exact key 3 d3 u3) (fun e he => by
      simp only [List.mem_cons, List.not_mem_nil, or_false] at he
      rcases he with rfl | rfl <;> simp [Hypo.WF, Dict.keys]) (fun e he => by
      simp only [List.mem_cons, List.not_mem_nil, or_false] at he
      rcases he with rfl | rfl <;> simp [Dict.keys, oneSetup])
  obtain ⟨r2, h2⟩ := fillAll_succeeds .tmu r1 (fun e he => by
    obtain ⟨x, hx, _, a, b, k1, k2⟩ := forall2_exists_left (Raster.init_spec h1) e he
    rw [k2]
    unfold fillPv makeTMu
    simp only
    rw [Dict.getItem_ok.2 (Dict.get?_set_self _ _ _), bind_ok]
    exact ⟨_, rfl⟩)
  refine ⟨s1, r2, ?_⟩
  unfold tmuResults
  rw [hmode, bind_ok, hl, bind_ok]
  simp only
  rw [(hf s1).1, bind_ok]
  simp only
  rw [hfin, bind_ok]
  simp only [List.map_cons, List.map_nil]
  rw [h1, bind_ok, h2, bind_ok]
  rfl


/-- One step of `fullHypos`. -/
noncomputable def fhStep (h : List String → ℕ) (d : HDict (Pars ℝ)) (e : Hypo × REntry) : HDict (Pars ℝ) :=
  match e.2.data.fullHypo with
  | some p => d.set h e.1 p
  | none => d

theorem fhStep_wf (h : List String → ℕ) {d : HDict (Pars ℝ)} (hd : HDict.WF d) {e : Hypo × REntry} (he : e.1.WF) :
    HDict.WF (fhStep h d e) := by
  unfold fhStep; split
  · exact HDict.wf_set h hd he _
  · exact hd

theorem fhStep_get (h : List String → ℕ) {d : HDict (Pars ℝ)} (hd : HDict.WF d) {e : Hypo × REntry} (he : e.1.WF)
    {k : Hypo} (hk : k.WF) (hne : ¬ e.1.matches h k) : (fhStep h d e).get? h k = d.get? h k := by
  unfold fhStep; split
  · rw [HDict.get?_set h hd he hk, if_neg hne]
  · rfl

theorem fh_other (h : List String → ℕ) (r : Raster) (d : HDict (Pars ℝ)) (hd : HDict.WF d)
    (hw : ∀ e ∈ r, e.1.WF) (k : Hypo) (hk : k.WF) (hne : ∀ e ∈ r, ¬ e.1.matches h k) :
    (r.foldl (fhStep h) d).get? h k = d.get? h k := by
  induction r generalizing d with
  | nil => rfl
  | cons e r ih =>
    rw [List.foldl_cons, ih _ (fhStep_wf h hd (hw e (by simp))) (fun x hx => hw x (by simp [hx]))
      (fun x hx => hne x (by simp [hx])), fhStep_get h hd (hw e (by simp)) hk (hne e (by simp))]

theorem fh_get (h : List String → ℕ) (r : Raster) (d : HDict (Pars ℝ)) (hd : HDict.WF d)
    (hw : ∀ e ∈ r, e.1.WF) (hp : (r.map Prod.fst).Pairwise (fun a b => ¬ a.matches h b))
    (hn : ∀ e ∈ r, d.get? h e.1 = none) :
    ∀ e ∈ r, (r.foldl (fhStep h) d).get? h e.1 = e.2.data.fullHypo := by
  induction r generalizing d with
  | nil => simp
  | cons x r ih =>
    intro e he
    simp only [List.map_cons, List.pairwise_cons] at hp
    have hx := hw x (by simp)
    rw [List.foldl_cons]
    rcases List.mem_cons.1 he with rfl | he
    · rw [fh_other h r _ (fhStep_wf h hd hx) (fun y hy => hw y (by simp [hy])) e.1 hx]
      · unfold fhStep
        split
        · rename_i p hp'
          rw [HDict.get?_set h hd hx hx, if_pos (Hypo.matches_refl h hx), hp']
        · rename_i hp'
          rw [hp', hn e (by simp)]
      · intro y hy hm
        exact hp.1 y.1 (List.mem_map_of_mem hy) (Hypo.matches_symm h (hw y (by simp [hy])) hx hm)
    · refine ih _ (fhStep_wf h hd hx) (fun y hy => hw y (by simp [hy])) hp.2 (fun y hy => ?_) e he
      rw [fhStep_get h hd hx (hw y (by simp [hy])) (hp.1 y.1 (List.mem_map_of_mem hy)), hn y (by simp [hy])]

theorem fullHypos_get (h : List String → ℕ) (r : Raster) (hw : ∀ e ∈ r, e.1.WF)
    (hp : (r.map Prod.fst).Pairwise (fun a b => ¬ a.matches h b)) :
    ∀ e ∈ r, (fullHypos h r).get? h e.1 = e.2.data.fullHypo :=
  fh_get h r [] (by intro kv hkv; simp at hkv) hw hp (fun _ _ => rfl)

theorem forall2_mem {α β : Type} {R : α → β → Prop} {l : List α} {l' : List β}
    (h : List.Forall₂ R l l') : List.Forall₂ (fun a b => R a b ∧ a ∈ l) l l' := by
  have : ∀ L : List α, (∀ x ∈ l, x ∈ L) → List.Forall₂ (fun a b => R a b ∧ a ∈ L) l l' := by
    intro L hL
    induction h with
    | nil => exact .nil
    | cons a _ ih => exact .cons ⟨a, hL _ (by simp)⟩ (ih (fun x hx => hL x (by simp [hx])))
  exact this l (fun _ hx => hx)

/-- C58: recomputing a raster of distinct hypotheses keeps its hypotheses and their order, and gives at
each of them what a computation for this hypothesis alone gives, starting at the stored full hypothesis. -/
theorem c58_recompute (h : List String → ℕ) (c : CalcSetup) (k : CalcKind) (data : DataEnv) (r r' : Raster)
    (s0 s' : OptiMin ℝ) (hc : CleanUse c s0) (hw : ∀ e ∈ r, (Dict.keys e.1).Nodup)
    (hd : (r.map Prod.fst).Pairwise (fun a b => ¬ SameHypo a b))
    (hres : recomputeRaster h c k data r s0 = .ok (s', r')) :
    List.Forall₂ (fun x e => e.1 = x.1 ∧
      ∃ s1 d a b, fastQ c k data x.1 x.2.data.fullHypo s0 = .ok (s1, d) ∧
        FitNlls d a b ∧ tmuIs d (max 0 (2 * (a - b))) ∧ tmuIs e.2.data (2 * (a - b)) ∧
        e.2.data.freeFit = d.freeFit ∧ e.2.data.hypoFit = d.hypoFit ∧ (b ≤ a → e.2.data = d)) r r' := by
  have hw' : ∀ a ∈ r.map Prod.fst, (Dict.keys a).Nodup := by
    intro a ha; obtain ⟨e, he, rfl⟩ := List.mem_map.1 ha; exact hw e he
  have := c58_each_alone h c k data _ _ s0 s' r' hc hw' hd hres
  have hm := distinct_not_matches h hw' hd
  refine (forall2_mem (forall2_map_left' _ this)).imp ?_
  rintro x e ⟨⟨e1, s1, d, a, b, q, k1, k2, k3, _, k5, k6, _, k8⟩, hx⟩
  rw [fullHypos_get h r hw hm x hx] at q
  exact ⟨e1, s1, d, a, b, q, k1, k2, k3, k5, k6, k8⟩

theorem fastQ_full (c : CalcSetup) (k : CalcKind) (data : DataEnv) (hypo : Hypo)
    (full : Option (Pars ℝ)) (s s' : OptiMin ℝ) (d : PLRData)
    (h : fastQ c k data hypo full s = .ok (s', d)) : d.fullHypo = full := by
  obtain ⟨t1, d1, ae, a, d2, h1, h2, h3, h4, h5⟩ := (fastQ_inv c k data hypo full s s' d).1 h
  obtain ⟨o, ho, hp⟩ := fastPlr_tmu c data.fit hypo full s t1 d1 h1
  obtain ⟨ff, hf, i1, i2, rfl, _⟩ := plrOf_spec c hypo full o d1 hp
  unfold PLRData.setAsimov at h4
  obtain ⟨A, _, h6⟩ := bind_eq_ok.1 h4
  have e2 := Except.ok.inj (ε := PyErr) h6
  rw [(fillPv_fixed h5).2.2.2.1, ← e2]

/-- C58: recomputing on the same data a raster that the same calculator computed gives the same raster
(same fits, statistics and p-values). -/
theorem c58_recompute_same (h : List String → ℕ) (c : CalcSetup) (k : CalcKind) (data : DataEnv)
    (hypos : List Hypo) (full : HDict (Pars ℝ)) (s0 s1 s2 : OptiMin ℝ) (r r' : Raster) (hc : CleanUse c s0)
    (hw : ∀ a ∈ hypos, (Dict.keys a).Nodup) (hd : hypos.Pairwise (fun a b => ¬ SameHypo a b))
    (hr : fastResults h c k data hypos full s0 = .ok (s1, r))
    (hr' : recomputeRaster h c k data r s0 = .ok (s2, r')) :
    r'.map (fun e => (e.1, e.2.data)) = r.map (fun e => (e.1, e.2.data)) := by
  have f1 := fastResults_spec h c k data hypos full s0 s1 r hc hw hd hr
  have hk : r.map Prod.fst = hypos := forall2_keys (f1.imp fun _ _ ⟨_, _, _, hx⟩ => hx.1)
  unfold recomputeRaster at hr'
  have hm := distinct_not_matches h hw hd
  have f2 := fastResults_spec h c k data _ _ s0 s2 r' hc (by rw [hk]; exact hw) (by rw [hk]; exact hd) hr'
  have f2' := forall2_mem (forall2_map_left' _ f2)
  have f3 : ∀ x ∈ r, ∃ u d, fastQ c k data x.1 (full.get? h x.1) s0 = .ok (u, d) ∧ FromAlone k x.1 d x ∧
      x.2.data.fullHypo = full.get? h x.1 := by
    intro x hx
    obtain ⟨hy, _, u, d, q, hfa⟩ := forall2_exists_left f1 x hx
    have e1 := hfa.1
    subst e1
    obtain ⟨_, a, b, _, _, _, _, z⟩ := id hfa
    exact ⟨u, d, q, hfa, by rw [(fillPv_fixed z).2.2.2.1]; exact fastQ_full c k data _ _ s0 u d q⟩
  have f4 : List.Forall₂ (fun x e => (e.1, e.2.data) = (x.1, x.2.data)) r r' := by
    refine f2'.imp ?_
    rintro x e ⟨⟨u, d, q, hfa⟩, hx⟩
    obtain ⟨u', d', q', hfa', hfull⟩ := f3 x hx
    rw [fullHypos_get h r (fun e he => hw e.1 (by rw [← hk]; exact List.mem_map_of_mem he))
      (by rw [hk]; exact hm) x hx, hfull, q'] at q
    have := Except.ok.inj (ε := PyErr) q
    simp only [Prod.mk.injEq] at this
    obtain ⟨_, rfl⟩ := this
    obtain ⟨e1, a, b, n1, _, _, _, z1⟩ := hfa
    obtain ⟨e2, a', b', n2, _, _, _, z2⟩ := hfa'
    obtain ⟨rfl, rfl⟩ := PLRData.HasNlls.unique n1 n2
    rw [Except.ok.inj (ε := PyErr) (z1.symm.trans z2), e1]
  clear f2 f2' f1 f3 hr hr' hk
  induction f4 with
  | nil => rfl
  | cons a _ ih => rw [List.map_cons, List.map_cons, a, ih]

end Verif.Props
