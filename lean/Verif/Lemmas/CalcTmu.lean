import Verif.Lemmas.CalcFast
/-! Helper lemmas about `TMuCalculator.compute_fast_results`. -/
namespace Verif
open Classical

/-- What one iteration of the loop stores for a hypothesis (`init` is the start point). -/
structure StepOut (c : CalcSetup) (mode : FreeFit) (env : FitEnv ℝ) (method : String) (hy : Hypo)
    (fh : Option (Pars ℝ)) (x : PLRData × Pars ℝ) : Prop where
  hypo : x.1.hypo = hy
  full : x.1.fullHypo = fh
  stats : x.1.testStats = []
  pvs : x.1.pvs = []
  keys : ∀ n ∈ Dict.keys hy, n ∈ c.m.pois
  fixed : ∃ ph bh sh rh v hf,
    setPois c.m c.pois (fh.getD c.ref) (some (argBounds c.pois none).values) (some hy) true = .ok (ph, bh) ∧
    minimizeD c.opt env c.m { method := method, initPois := ph, bounds := bh } = .ok (sh, rh) ∧
    sh.minNll = some v ∧ sh.minPars = some x.2 ∧
    FitResult.init c.m (some x.2) (some v) none = .ok hf ∧ x.1.hypoFit = some hf
  free : match mode with
    | .all => ∃ pf sf rf vf qf ff,
      setPois c.m c.pois (fh.getD c.ref) none (some hy) false = .ok (pf, argBounds c.pois none) ∧
      minimizeD c.opt env c.m { method := method, initPois := pf, bounds := argBounds c.pois none }
        = .ok (sf, rf) ∧
      sf.minNll = some vf ∧ sf.minPars = some qf ∧
      FitResult.init c.m (some qf) (some vf) none = .ok ff ∧ x.1.freeFit = some ff
    | _ => x.1.freeFit = none

theorem MinSt.result_ok {st : MinSt ℝ} {v : ℝ} {q : Pars ℝ} (h : st.result = .ok (v, q)) :
    st.minNll = some v ∧ st.minPars = some q := by
  unfold MinSt.result at h
  split at h
  · rename_i a b h1 h2
    have := Except.ok.inj (ε := PyErr) h
    simp only [Prod.mk.injEq] at this
    exact ⟨by rw [h1, this.1], by rw [h2, this.2]⟩
  · cases h

/-- What is needed for the free fits of the loop to be independent. -/
def FreeOk (c : CalcSetup) (mode : FreeFit) (method : String) : Prop :=
  mode = .all → Evaluates c.opt ∧ ∃ fr, freeBounds (argBounds c.pois none) = .ok fr ∧ fr ≠ [] ∧
    (method = "scalar" → fr.length = 1)

theorem update_empty {c : CalcSetup} {hy : Hypo} {fh : Option (Pars ℝ)} {d : PLRData}
    (h0 : PLRData.update c.m ⟨hy, none, none, [], [], fh⟩ = .ok d) :
    d = ⟨hy, none, none, [], [], fh⟩ ∧ ∀ n ∈ Dict.keys hy, n ∈ c.m.pois := by
  have hk : ∀ n ∈ Dict.keys hy, n ∈ c.m.pois := by
    unfold PLRData.update at h0
    by_contra hc
    rw [if_neg hc] at h0
    cases h0
  refine ⟨?_, hk⟩
  unfold PLRData.update at h0
  simp only at h0
  rw [if_pos hk] at h0
  simpa using h0.symm

theorem tmuStep_spec (h : List String → ℕ) (c : CalcSetup) (mode : FreeFit) (env : FitEnv ℝ)
    (full : HDict (Pars ℝ)) (hy : Hypo) (s s' : OptiMin ℝ) (r r' : TmuAcc)
    (hall : FreeOk c mode s.method)
    (e : tmuStep h c mode env full hy s r = .ok (s', r')) :
    s'.method = s.method ∧ s'.altMethod = s.altMethod ∧ s'.rebound = s.rebound ∧
      s'.bounds = some (argBounds c.pois none) ∧
      (mode ≠ .all → s'.minNll = s.minNll ∧ s'.minPars = s.minPars) ∧
      ∃ x, r' = r.set h hy x ∧ StepOut c mode env s.method hy (full.get? h hy) x := by
  unfold tmuStep at e
  obtain ⟨d, h1, h2⟩ := bind_eq_ok.1 e
  obtain ⟨⟨pf, bf⟩, h3, h4⟩ := bind_eq_ok.1 h2
  simp only at h4
  obtain ⟨⟨ph, bh⟩, h5, h6⟩ := bind_eq_ok.1 h4
  simp only at h6
  obtain ⟨⟨sh, rh⟩, h7, h8⟩ := bind_eq_ok.1 h6
  simp only at h8
  obtain ⟨⟨vh, qh⟩, h9, h10⟩ := bind_eq_ok.1 h8
  simp only at h10
  obtain ⟨hf, h11, h12⟩ := bind_eq_ok.1 h10
  obtain ⟨rfl, hk⟩ := update_empty h1
  have hbf := setPois_bounds c.m c.pois _ pf _ _ bf h3
  subst hbf
  obtain ⟨r1, r2⟩ := MinSt.result_ok h9
  cases mode with
  | all =>
    simp only at h12
    obtain ⟨⟨sf, rf⟩, g1, g2⟩ := bind_eq_ok.1 h12
    simp only at g2
    obtain ⟨⟨vf, qf⟩, g3, g4⟩ := bind_eq_ok.1 g2
    simp only at g4
    obtain ⟨ff, g5, g6⟩ := bind_eq_ok.1 g4
    have e1 := Except.ok.inj (ε := PyErr) g6
    simp only [Prod.mk.injEq] at e1
    obtain ⟨hopt, fr, hfr, hne, hsc⟩ := hall rfl
    have hm := minimizeD_method c.opt env c.m _ sf rf fr hfr hne g1
    simp only at hm
    rw [if_neg (by rintro ⟨a, b⟩; have := hsc b; omega)] at hm
    obtain ⟨rfl, rfl⟩ := e1
    obtain ⟨q1, q2⟩ := MinSt.result_ok g3
    refine ⟨hm, rfl, rfl, rfl, fun hc => absurd rfl hc, _, rfl, ⟨rfl, rfl, rfl, rfl, hk, ?_, ?_⟩⟩
    · exact ⟨ph, bh, sh, rh, vh, hf, h5, h7, r1, r2, h11, rfl⟩
    · refine ⟨pf, sf, rf, vf, qf, ff, h3, ?_, q1, q2, g5, rfl⟩
      rw [← g1]
      exact minimizeD_congr c.opt hopt env c.m s.method pf _ none s.minNll none s.minPars
  | single =>
    have e1 := Except.ok.inj (ε := PyErr) h12
    simp only [Prod.mk.injEq] at e1
    obtain ⟨rfl, rfl⟩ := e1
    exact ⟨rfl, rfl, rfl, rfl, fun _ => ⟨rfl, rfl⟩, _, rfl, ⟨rfl, rfl, rfl, rfl, hk,
      ⟨ph, bh, sh, rh, vh, hf, h5, h7, r1, r2, h11, rfl⟩, rfl⟩⟩
  | bestFixed =>
    have e1 := Except.ok.inj (ε := PyErr) h12
    simp only [Prod.mk.injEq] at e1
    obtain ⟨rfl, rfl⟩ := e1
    exact ⟨rfl, rfl, rfl, rfl, fun _ => ⟨rfl, rfl⟩, _, rfl, ⟨rfl, rfl, rfl, rfl, hk,
      ⟨ph, bh, sh, rh, vh, hf, h5, h7, r1, r2, h11, rfl⟩, rfl⟩⟩

theorem tmuLoop_spec (h : List String → ℕ) (c : CalcSetup) (mode : FreeFit) (env : FitEnv ℝ)
    (full : HDict (Pars ℝ)) (hypos : List Hypo) (s s' : OptiMin ℝ) (r r' : TmuAcc)
    (hall : FreeOk c mode s.method)
    (hd : hypos.Pairwise (fun a b => ¬ a.matches h b))
    (hd' : ∀ e ∈ r, ∀ b ∈ hypos, ¬ e.1.matches h b)
    (e : tmuLoop h c mode env full hypos s r = .ok (s', r')) :
    s'.method = s.method ∧ (hypos ≠ [] → s'.bounds = some (argBounds c.pois none)) ∧
    ∃ l : TmuAcc, r' = r ++ l ∧ List.Forall₂ (fun hy x => x.1 = hy ∧
      StepOut c mode env s.method hy (full.get? h hy) x.2) hypos l := by
  induction hypos generalizing s r with
  | nil =>
    have := Except.ok.inj (ε := PyErr) e
    simp only [Prod.mk.injEq] at this
    obtain ⟨rfl, rfl⟩ := this
    exact ⟨rfl, fun hc => absurd rfl hc, [], by simp, .nil⟩
  | cons hy hs ih =>
    unfold tmuLoop at e
    obtain ⟨⟨s1, r1⟩, h1, h2⟩ := bind_eq_ok.1 e
    simp only at h2
    obtain ⟨m1, _, _, m4, _, x, hx, hso⟩ := tmuStep_spec h c mode env full hy s s1 r r1 hall h1
    rw [HDict.set_append h r hy x (fun y hy' => hd' y hy' hy (by simp))] at hx
    subst hx
    rw [List.pairwise_cons] at hd
    obtain ⟨k1, k2, l, hl, hf⟩ := ih s1 (r ++ [(hy, x)]) (by rw [m1]; exact hall) hd.2 (by
      intro y hy' b hb
      rw [List.mem_append, List.mem_singleton] at hy'
      rcases hy' with hy' | hy'
      · exact hd' y hy' b (by simp [hb])
      · rw [hy']; exact hd.1 b hb) h2
    refine ⟨k1.trans m1, fun _ => ?_, (hy, x) :: l, by rw [hl]; simp, .cons ⟨rfl, hso⟩ (by rw [m1] at hf; exact hf)⟩
    by_cases hs0 : hs = []
    · subst hs0
      have := Except.ok.inj (ε := PyErr) h2
      simp only [Prod.mk.injEq] at this
      rw [← this.1]; exact m4
    · exact k2 hs0

theorem HDict.get?_mid {V : Type} (h : List String → ℕ) (p l : HDict V) (k : Hypo) (v : V)
    (hk : (Dict.keys k).Nodup) (hp : ∀ e ∈ p, ¬ e.1.matches h k) :
    HDict.get? h (p ++ (k, v) :: l) k = some v := by
  induction p with
  | nil =>
    simp only [List.nil_append, HDict.get?]
    rw [if_pos (Hypo.matches_refl h hk)]
  | cons x p ih =>
    obtain ⟨k', v'⟩ := x
    simp only [List.cons_append, HDict.get?]
    rw [if_neg (hp (k', v') (by simp)), ih (fun e he => hp e (by simp [he]))]

theorem HDict.set_mid {V : Type} (h : List String → ℕ) (p l : HDict V) (k : Hypo) (v w : V)
    (hk : (Dict.keys k).Nodup) (hp : ∀ e ∈ p, ¬ e.1.matches h k) :
    HDict.set h (p ++ (k, v) :: l) k w = p ++ (k, w) :: l := by
  induction p with
  | nil =>
    simp only [List.nil_append, HDict.set]
    rw [if_pos (Hypo.matches_refl h hk)]
  | cons x p ih =>
    obtain ⟨k', v'⟩ := x
    simp only [List.cons_append, HDict.set]
    rw [if_neg (hp (k', v') (by simp)), ih (fun e he => hp e (by simp [he]))]

theorem tmuFinish_spec (h : List String → ℕ) (c : CalcSetup) (f : Option FitResult) (l : TmuAcc)
    (p r' : TmuAcc) (hw : ∀ e ∈ l, (Dict.keys e.1).Nodup)
    (hd : (l.map Prod.fst).Pairwise (fun a b => ¬ a.matches h b))
    (hp : ∀ e ∈ p, ∀ b ∈ l, ¬ e.1.matches h b.1)
    (e : tmuFinish h c f (l.map Prod.fst) (p ++ l) = .ok r') :
    ∃ l', r' = p ++ l' ∧ List.Forall₂ (fun x x' => x'.1 = x.1 ∧ x'.2.2 = x.2.2 ∧
      PLRData.update c.m (withFree f x.2.1) = .ok x'.2.1) l l' := by
  induction l generalizing p with
  | nil =>
    have := Except.ok.inj (ε := PyErr) e
    exact ⟨[], this.symm, .nil⟩
  | cons x l ih =>
    obtain ⟨k, v⟩ := x
    simp only [List.map_cons] at e hd
    unfold tmuFinish at e
    have hk := hw (k, v) (by simp)
    have hpk : ∀ e ∈ p, ¬ e.1.matches h k := fun e he => hp e he (k, v) (by simp)
    obtain ⟨y, h1, h2⟩ := bind_eq_ok.1 e
    rw [HDict.getItem_ok, HDict.get?_mid h p l k v hk hpk] at h1
    cases h1
    obtain ⟨d, h3, h4⟩ := bind_eq_ok.1 h2
    rw [HDict.set_mid h p l k v _ hk hpk] at h4
    rw [List.pairwise_cons] at hd
    obtain ⟨l', hl, hf⟩ := ih (p ++ [(k, (d, v.2))]) (fun e he => hw e (by simp [he])) hd.2 (by
      intro z hz b hb
      rw [List.mem_append, List.mem_singleton] at hz
      rcases hz with hz | hz
      · exact hp z hz b (by simp [hb])
      · rw [hz]; exact hd.1 b.1 (List.mem_map_of_mem hb)) (by simpa using h4)
    refine ⟨(k, (d, v.2)) :: l', by rw [hl]; simp, .cons ⟨rfl, rfl, ?_⟩ hf⟩
    exact h3

theorem argMinBy_mem {α : Type} (l : List (α × ℝ)) (b : α × ℝ) : argMinBy b l ∈ b :: l := by
  induction l generalizing b with
  | nil => simp [argMinBy]
  | cons x l ih =>
    unfold argMinBy
    split
    · have := ih x; simp only [List.mem_cons] at this ⊢; tauto
    · have := ih b; simp only [List.mem_cons] at this ⊢; tauto

theorem argMinBy_le {α : Type} (l : List (α × ℝ)) (b : α × ℝ) :
    (argMinBy b l).2 ≤ b.2 ∧ ∀ x ∈ l, (argMinBy b l).2 ≤ x.2 := by
  induction l generalizing b with
  | nil => simp [argMinBy]
  | cons y l ih =>
    unfold argMinBy
    split
    · rename_i hy
      obtain ⟨h1, h2⟩ := ih y
      refine ⟨h1.trans hy.le, fun x hx => ?_⟩
      rcases List.mem_cons.1 hx with rfl | hx
      · exact h1
      · exact h2 x hx
    · rename_i hy
      obtain ⟨h1, h2⟩ := ih b
      refine ⟨h1, fun x hx => ?_⟩
      rcases List.mem_cons.1 hx with rfl | hx
      · exact h1.trans (not_lt.1 hy)
      · exact h2 x hx

end Verif
