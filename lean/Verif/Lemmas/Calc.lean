import Verif.Model.Calc
import Verif.Lemmas.POIFit
import Verif.Lemmas.Raster
/-! Helper lemmas about repeated use of a minimiser and the calculators. -/
namespace Verif
open Spec

theorem Dict.ext_keys {V : Type} (a b : Dict V) (hk : Dict.keys a = Dict.keys b)
    (hn : (Dict.keys a).Nodup) (h : ∀ k ∈ Dict.keys a, Dict.get? a k = Dict.get? b k) : a = b := by
  induction a generalizing b with
  | nil =>
    cases b with
    | nil => rfl
    | cons y b => simp [Dict.keys] at hk
  | cons x a ih =>
    obtain ⟨k, v⟩ := x
    cases b with
    | nil => simp [Dict.keys] at hk
    | cons y b =>
      obtain ⟨k', v'⟩ := y
      simp only [Dict.keys, List.map_cons, List.cons.injEq] at hk
      obtain ⟨rfl, hk2⟩ := hk
      simp only [Dict.keys, List.map_cons, List.nodup_cons] at hn
      have h0 := h k (by simp [Dict.keys])
      simp only [Dict.get?, if_true, Option.some.injEq] at h0
      subst h0
      congr 1
      refine ih b hk2 hn.2 ?_
      intro j hj
      have hne : k ≠ j := fun e => hn.1 (e ▸ hj)
      have := h j (by simp only [Dict.keys, List.map_cons, List.mem_cons]; exact Or.inr hj)
      simpa [Dict.get?, hne] using this

theorem Dict.keys_setAll_sub {V : Type} (l : List (String × V)) (d : Dict V)
    (h : ∀ e ∈ l, e.1 ∈ Dict.keys d) : Dict.keys (Dict.setAll d l) = Dict.keys d := by
  induction l generalizing d with
  | nil => rfl
  | cons a l ih =>
    have e : Dict.keys (d.set a.1 a.2) = Dict.keys d := by
      rw [Dict.keys_set, if_pos (h a (by simp))]
    have : Dict.setAll d (a :: l) = Dict.setAll (d.set a.1 a.2) l := rfl
    rw [this, ih _ (fun x hx => by rw [e]; exact h x (by simp [hx])), e]

/-- Assigning all entries of a dict that extends `d0` (same first keys) gives that dict. -/
theorem Dict.setAll_extends {V : Type} (d0 d : Dict V) (ex : List String)
    (hk : Dict.keys d = Dict.keys d0 ++ ex) (hn : (Dict.keys d).Nodup) : Dict.setAll d0 d = d := by
  have hlen : (Dict.keys d0).length ≤ d.length := by
    have := congrArg List.length hk
    simp only [Dict.keys, List.length_map, List.length_append] at this ⊢
    omega
  set n := (Dict.keys d0).length with hn'
  set d1 : Dict V := d.take n with h1
  set d2 : Dict V := d.drop n with h2
  have hsplit : d = d1 ++ d2 := (List.take_append_drop n d).symm
  have hk1 : Dict.keys d1 = Dict.keys d0 := by
    have : Dict.keys d1 = (Dict.keys d).take n := by simp [Dict.keys, h1, List.map_take]
    rw [this, hk]; simp [hn']
  have hn1 : (Dict.keys d1 ++ d2.map Prod.fst).Nodup := by
    have : Dict.keys d1 ++ d2.map Prod.fst = Dict.keys d := by
      conv_rhs => rw [hsplit]
      simp [Dict.keys]
    rw [this]; exact hn
  have hn1' : (Dict.keys d1).Nodup := (List.nodup_append.1 hn1).1
  have e1 : Dict.setAll d0 d1 = d1 := by
    have hk' : Dict.keys (Dict.setAll d0 d1) = Dict.keys d1 := by
      rw [Dict.keys_setAll_sub _ _ (fun e he => by rw [← hk1]; exact List.mem_map_of_mem he), hk1]
    refine Dict.ext_keys _ _ hk' (by rw [hk']; exact hn1') ?_
    intro k hk2
    rw [hk'] at hk2
    rw [Dict.get?_setAll_last]
    obtain ⟨e, he, rfl⟩ := List.mem_map.1 hk2
    have hl : ((List.filter (fun x => decide (x.1 = e.1)) d1).getLast?).map Prod.snd = some e.2 :=
      lastFor_nodup d1 hn1' e he
    rw [hl]
    exact ((Dict.get?_eq_some_iff d1 hn1' e.1 e.2).2 he).symm
  have e2 : Dict.setAll d0 d = Dict.setAll (Dict.setAll d0 d1) d2 := by
    conv_lhs => rw [hsplit]
    simp [Dict.setAll, List.foldl_append]
  rw [e2, e1, Dict.setAll_eq_append _ _ hn1, ← hsplit]

section
variable {K : Type} [Field K] [LinearOrder K]

theorem argBounds_inv (pois : List (PoiRange K)) (bounds : Option (List (ParBound K))) :
    BInv (argBounds pois bounds) :=
  buildBounds_inv pois bounds none false _ rfl

/-- Passing the bounds of a minimiser back to `set_pois` gives the same bounds. -/
theorem argBounds_again (pois : List (PoiRange K)) (bounds : Option (List (ParBound K))) :
    argBounds pois (some (argBounds pois bounds).values) = argBounds pois bounds := by
  have hinv := argBounds_inv pois bounds
  set d := argBounds pois bounds with hd
  have hpairs : (d.values.map fun b => (b.par, b)) = d := by
    simp only [Dict.values, List.map_map]
    conv_rhs => rw [← List.map_id d]
    refine List.map_congr_left fun e he => ?_
    obtain ⟨k, b⟩ := e
    have := hinv.2 _ he
    simp only at this
    simp [this]
  have : argBounds pois (some d.values)
      = Dict.setAll (Dict.setAll [] (pois.map fun b => (b.par, b))) d := by
    unfold argBounds
    simp only [hpairs]
  rw [this]
  obtain ⟨ex, hex⟩ : ∃ ex, Dict.keys d = Dict.keys (Dict.setAll [] (pois.map fun b => (b.par, b))) ++ ex := by
    cases bounds with
    | none => exact ⟨[], by simp [hd, argBounds]⟩
    | some bs => exact Dict.keys_setAll _ _
  exact Dict.setAll_extends _ _ ex hex hinv.1

theorem setPois_bounds (m : ParModel K) (pois : List (PoiRange K)) (init p : Pars K)
    (bounds : Option (List (ParBound K))) (hypo : Option (Dict K)) (d : Dict (ParBound K))
    (h : setPois m pois init bounds hypo false = .ok (p, d)) : d = argBounds pois bounds := by
  obtain ⟨_, _, h2, _⟩ := setPois_inv m pois init bounds hypo false p d h
  exact (Except.ok.inj (ε := PyErr) h2).symm

theorem setPois_congr (m : ParModel K) (pois : List (PoiRange K)) (init : Pars K)
    (b b' : Option (List (ParBound K))) (hypo : Option (Dict K)) (fix : Bool)
    (h : argBounds pois b = argBounds pois b') :
    setPois m pois init b hypo fix = setPois m pois init b' hypo fix := by
  unfold setPois buildBounds
  rw [h]

/-- An optimiser that evaluates the objective at least once. -/
def Evaluates (opt : Optim K) : Prop := ∀ env method p fr, (opt env method p fr).evals ≠ []

/-- The outcome of a `minimize` call does not depend on what an earlier one left in `min_nll`,
`min_pars`. -/
theorem minimizeD_congr (opt : Optim K) (hopt : Evaluates opt) (env : FitEnv K) (m : ParModel K)
    (method : String) (p : Pars K) (d : Dict (ParBound K)) (v v' : Option K) (q q' : Option (Pars K)) :
    minimizeD opt env m { method := method, initPois := p, bounds := d, minNll := v, minPars := q } =
    minimizeD opt env m { method := method, initPois := p, bounds := d, minNll := v', minPars := q' } := by
  unfold minimizeD optRun minimize
  simp only
  cases hfr : freeBounds d with
  | error e => rfl
  | ok fr =>
    simp only [bind_ok, pure_ok]
    have hev := hopt env (if fr.length > 1 ∧ method = "scalar" then "L-BFGS-B" else method) p fr
    set run := opt env (if fr.length > 1 ∧ method = "scalar" then "L-BFGS-B" else method) p fr
    cases hx : fr.mapM (fun b => p.get m b.2.par) with
    | error e => rfl
    | ok x0 =>
      simp only [bind_ok]
      by_cases hc : fr.length = 0 ∧ method ≠ ""
      · rw [if_pos hc, if_pos hc]
      · rw [if_neg hc, if_neg hc]
        by_cases hm : (if fr.length > 1 ∧ method = "scalar" then "L-BFGS-B" else method)
            ∈ ["scalar", "CG", "L-BFGS-B"]
        · rw [if_pos hm, if_pos hm]
          cases hes : run.evals.mapM (evalAt env p fr) with
          | error e => rfl
          | ok es =>
            have hne : es ≠ [] := by
              rintro rfl
              exact hev (List.length_eq_zero_iff.1 (mapM_ok_iff.1 hes).length_eq)
            obtain ⟨vq, hvq⟩ : ∃ vq, es.getLast? = some vq := by
              cases hl : es.getLast? with
              | none => simp at hl; exact absurd hl hne
              | some vq => exact ⟨vq, rfl⟩
            simp [hvq]
        · rw [if_neg hm, if_neg hm]

/-- The method left by a fit with free bounds. -/
theorem minimizeD_method (opt : Optim K) (env : FitEnv K) (m : ParModel K) (st st' : MinSt K)
    (r : MinRet K) (fr : List (Nat × ParBound K)) (hfr : freeBounds st.bounds = .ok fr) (hne : fr ≠ [])
    (h : minimizeD opt env m st = .ok (st', r)) :
    st'.method = if fr.length > 1 ∧ st.method = "scalar" then "L-BFGS-B" else st.method := by
  unfold minimizeD optRun at h
  rw [hfr] at h
  simp only [bind_ok, pure_ok] at h
  unfold minimize at h
  rw [hfr] at h
  simp only [bind_ok] at h
  obtain ⟨x0, _, h1⟩ := bind_eq_ok.1 h
  have hc : ¬ (fr.length = 0 ∧ st.method ≠ "") := fun hc => hne (List.length_eq_zero_iff.1 hc.1)
  rw [if_neg hc] at h1
  split_ifs at h1 with hm hs
  all_goals first
    | (cases h1; done)
    | (obtain ⟨es, _, h2⟩ := bind_eq_ok.1 h1
       have := Except.ok.inj (ε := PyErr) h2
       simp only [Prod.mk.injEq] at this
       rw [← this.1]
       simp [*])

theorem attempt_inv (opt : Optim K) (m : ParModel K) (pois : List (PoiRange K)) (env : FitEnv K)
    (init : Pars K) (hypo : Dict K) (s s' : OptiMin K) (o : TmuOut K)
    (h : s.attempt opt m pois env init hypo = .ok (s', o)) :
    ∃ pf bf ph bh sh rh sf rf,
      setPois m pois init (s.bounds.map Dict.values) (some hypo) false = .ok (pf, bf) ∧
      setPois m pois init (some bf.values) (some hypo) true = .ok (ph, bh) ∧
      minimizeD opt env m { method := s.method, initPois := ph, bounds := bh } = .ok (sh, rh) ∧
      minimizeD opt env m { method := s.method, initPois := pf, bounds := bf,
                            minNll := s.minNll, minPars := s.minPars } = .ok (sf, rf) ∧
      sh.minNll = some o.hypoNll ∧ sf.minNll = some o.freeNll ∧
      sh.minPars = some o.hypoPars ∧ sf.minPars = some o.freePars ∧
      o.tmu = tmuValue o.hypoNll o.freeNll ∧
      s' = { s with method := sf.method, bounds := some bf, minNll := some o.freeNll,
                    minPars := some o.freePars
                    tmuDebug := if 2 * (o.hypoNll - o.freeNll) < -(1 / 10 ^ 10)
                      then 2 * (o.hypoNll - o.freeNll) else s.tmuDebug } := by
  unfold OptiMin.attempt at h
  obtain ⟨⟨pf, bf⟩, h1, h⟩ := bind_eq_ok.1 h
  obtain ⟨⟨ph, bh⟩, h2, h⟩ := bind_eq_ok.1 h
  obtain ⟨⟨sh, rh⟩, h3, h⟩ := bind_eq_ok.1 h
  obtain ⟨⟨sf, rf⟩, h4, h⟩ := bind_eq_ok.1 h
  simp only at h2 h3 h4 h
  refine ⟨pf, bf, ph, bh, sh, rh, sf, rf, h1, h2, h3, h4, ?_⟩
  revert h
  cases sh.minNll <;> cases sf.minNll <;> cases sh.minPars <;> cases sf.minPars <;>
    intro h <;> simp only [throw_error, pure_ok, reduceCtorEq, Except.ok.injEq, Prod.mk.injEq] at h
  obtain ⟨e1, e2⟩ := h
  rw [← e1, ← e2]
  exact ⟨rfl, rfl, rfl, rfl, rfl, rfl⟩

/-- Without alternate method and rebound, `OptiMinimizer.tmu` is `POIMinimizer.tmu`. -/
theorem tmu_eq_attempt (opt : Optim K) (m : ParModel K) (pois : List (PoiRange K)) (env : FitEnv K)
    (init : Pars K) (hypo : Dict K) (s : OptiMin K) (ha : s.altMethod = none) (hr : s.rebound = 0) :
    s.tmu opt m pois env init hypo = s.attempt opt m pois env init hypo := by
  unfold OptiMin.tmu
  cases h : s.attempt opt m pois env init hypo with
  | error e => rfl
  | ok x =>
    obtain ⟨s1, o1⟩ := x
    obtain ⟨_, _, _, _, _, _, _, _, _, _, _, _, _, _, _, _, _, hs⟩ :=
      attempt_inv opt m pois env init hypo s s1 o1 h
    have h1 : s1.altMethod = none := by rw [hs]; exact ha
    have h2 : s1.rebound = 0 := by rw [hs]; exact hr
    simp only [bind_ok, h1, h2]
    simp

/-- Two minimisers that a call of `tmu` cannot tell apart. -/
def Alike (pois : List (PoiRange K)) (s s' : OptiMin K) : Prop :=
  s.method = s'.method ∧ s.altMethod = none ∧ s'.altMethod = none ∧ s.rebound = 0 ∧ s'.rebound = 0 ∧
  argBounds pois (s.bounds.map Dict.values) = argBounds pois (s'.bounds.map Dict.values)

theorem attempt_alike (opt : Optim K) (hopt : Evaluates opt) (m : ParModel K) (pois : List (PoiRange K))
    (env : FitEnv K) (init : Pars K) (hypo : Dict K) (s s' : OptiMin K) (h : Alike pois s s') :
    (s.attempt opt m pois env init hypo).map Prod.snd =
      (s'.attempt opt m pois env init hypo).map Prod.snd := by
  obtain ⟨h1, _, _, _, _, h2⟩ := h
  unfold OptiMin.attempt
  rw [setPois_congr m pois init _ _ (some hypo) false h2, h1]
  cases setPois m pois init (s'.bounds.map Dict.values) (some hypo) false with
  | error e => rfl
  | ok x =>
    simp only [bind_ok]
    cases setPois m pois init (some x.2.values) (some hypo) true with
    | error e => rfl
    | ok y =>
      simp only [bind_ok]
      rw [minimizeD_congr opt hopt env m s'.method x.1 x.2 s.minNll s'.minNll s.minPars s'.minPars]
      cases minimizeD opt env m { method := s'.method, initPois := y.1, bounds := y.2 } with
      | error e => rfl
      | ok z =>
        simp only [bind_ok]
        cases minimizeD opt env m (MinSt.mk s'.method x.1 x.2 s'.minNll s'.minPars []) with
        | error e => rfl
        | ok w =>
          simp only [bind_ok]
          cases z.1.minNll <;> cases w.1.minNll <;> cases z.1.minPars <;> cases w.1.minPars <;> rfl

theorem tmu_alike (opt : Optim K) (hopt : Evaluates opt) (m : ParModel K) (pois : List (PoiRange K))
    (env : FitEnv K) (init : Pars K) (hypo : Dict K) (s s' : OptiMin K) (h : Alike pois s s') :
    (s.tmu opt m pois env init hypo).map Prod.snd = (s'.tmu opt m pois env init hypo).map Prod.snd := by
  rw [tmu_eq_attempt _ _ _ _ _ _ s h.2.1 h.2.2.2.1, tmu_eq_attempt _ _ _ _ _ _ s' h.2.2.1 h.2.2.2.2.1]
  exact attempt_alike opt hopt m pois env init hypo s s' h

/-- The settings for which a minimiser can be used again: no alternate method, no rebound, at least one
free POI, and not the `scalar` method with several free POIs. -/
def Reusable (pois : List (PoiRange K)) (s : OptiMin K) : Prop :=
  s.altMethod = none ∧ s.rebound = 0 ∧
  ∃ fr, freeBounds (argBounds pois (s.bounds.map Dict.values)) = .ok fr ∧ fr ≠ [] ∧
    (s.method = "scalar" → fr.length = 1)

theorem tmu_keeps (opt : Optim K) (m : ParModel K) (pois : List (PoiRange K))
    (env : FitEnv K) (init : Pars K) (hypo : Dict K) (s s' : OptiMin K) (o : TmuOut K)
    (hr : Reusable pois s) (h : s.tmu opt m pois env init hypo = .ok (s', o)) :
    Alike pois s s' ∧ Reusable pois s' := by
  obtain ⟨r1, r2, fr, hfr, hne, hsc⟩ := hr
  rw [tmu_eq_attempt _ _ _ _ _ _ s r1 r2] at h
  obtain ⟨pf, bf, ph, bh, sh, rh, sf, rf, h1, h2, h3, h4, _, _, _, _, _, hs⟩ :=
    attempt_inv opt m pois env init hypo s s' o h
  have hbf := setPois_bounds m pois init pf _ _ bf h1
  have hm : sf.method = s.method := by
    rw [minimizeD_method opt env m _ sf rf fr (by simpa [hbf] using hfr) hne h4]
    simp only
    rw [if_neg]
    rintro ⟨hl, hs⟩
    have := hsc hs
    omega
  have hb : argBounds pois (s'.bounds.map Dict.values) = argBounds pois (s.bounds.map Dict.values) := by
    rw [hs]
    simp only [Option.map_some]
    rw [hbf]
    exact argBounds_again pois _
  have ha : s'.altMethod = none := by rw [hs]; exact r1
  have hrb : s'.rebound = 0 := by rw [hs]; exact r2
  have hme : s'.method = s.method := by rw [hs]; exact hm
  exact ⟨⟨hme.symm, r1, ha, r2, hrb, hb.symm⟩, ha, hrb, fr, by rw [hb]; exact hfr, hne, by rw [hme]; exact hsc⟩

theorem Alike.symm {pois : List (PoiRange K)} {s s' : OptiMin K} (h : Alike pois s s') : Alike pois s' s :=
  ⟨h.1.symm, h.2.2.1, h.2.1, h.2.2.2.2.1, h.2.2.2.1, h.2.2.2.2.2.symm⟩

theorem Alike.trans {pois : List (PoiRange K)} {s s' s'' : OptiMin K} (h : Alike pois s s')
    (h' : Alike pois s' s'') : Alike pois s s'' :=
  ⟨h.1.trans h'.1, h.2.1, h'.2.2.1, h.2.2.2.1, h'.2.2.2.2.1, h.2.2.2.2.2.trans h'.2.2.2.2.2⟩

end
end Verif
