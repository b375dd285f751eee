import Verif.Lemmas.POIFit
import Verif.Props.Params
/-!
# C20, C21, C22, C42, C43, C44: bounds, fits over POIs, the profile likelihood ratio
-/
namespace Verif.Props
open Verif Spec
variable {K : Type} [Field K] [LinearOrder K]

/-! ## C22: bounds -/

/-- C22: what a bound accepts is the closed interval between its given ends. -/
theorem c22_accepts (b : ParBound K) (v : K) : b.testValue v = true ↔ Allows b v :=
  allows_iff b v

/-- C22: the conjunction of two bounds exists exactly when they are on the same parameter; it is
then a bound on that parameter and accepts exactly what both accept. -/
theorem c22_and (a b : ParBound K) :
    (a.par ≠ b.par → a.and b = none) ∧
    (a.par = b.par → ∃ c, a.and b = some c ∧ c.par = a.par ∧
      ∀ v, c.testValue v = true ↔ a.testValue v = true ∧ b.testValue v = true) := by
  refine ⟨fun h => by simp [ParBound.and, h], fun h => ?_⟩
  obtain ⟨pa, la, ha⟩ := a
  obtain ⟨pb, lb, hb⟩ := b
  simp only at h
  subst h
  have key : ∃ c, (⟨pa, la, ha⟩ : ParBound K).and ⟨pa, lb, hb⟩ = some c := by simp [ParBound.and]
  obtain ⟨c, hc⟩ := key
  refine ⟨c, hc, ?_, fun v => ?_⟩
  · simp only [ParBound.and, ne_eq, not_true_eq_false, if_false] at hc
    rw [← Option.some.inj hc]
  · simp only [ParBound.and, ne_eq, not_true_eq_false, if_false] at hc
    rw [← Option.some.inj hc]
    cases la <;> cases lb <;> cases ha <;> cases hb <;>
      simp [ParBound.testValue] <;> tauto

/-- C22: conjunction is commutative, associative and idempotent. -/
theorem c22_laws (a b c : ParBound K) :
    a.and b = b.and a ∧
    (a.and b).bind (·.and c) = (b.and c).bind (a.and ·) ∧
    a.and a = some a := by
  obtain ⟨pa, la, ha⟩ := a
  obtain ⟨pb, lb, hb⟩ := b
  obtain ⟨pc, lc, hc⟩ := c
  refine ⟨?_, ?_, ?_⟩
  · by_cases h : pa = pb
    · subst h
      cases la <;> cases lb <;> cases ha <;> cases hb <;>
        simp [ParBound.and, max_comm, min_comm]
    · simp [ParBound.and, h, Ne.symm h]
  · by_cases h : pa = pb
    · subst h
      by_cases h' : pa = pc
      · subst h'
        cases la <;> cases lb <;> cases ha <;> cases hb <;> cases lc <;> cases hc <;>
          simp [ParBound.and, max_assoc, min_assoc]
      · simp [ParBound.and, h']
    · by_cases h' : pb = pc
      · subst h'
        simp [ParBound.and, h]
      · simp [ParBound.and, h, h']
  · cases la <;> cases ha <;> simp [ParBound.and]

/-- C22: a bound with at least one end is fixed exactly when it accepts a single value. -/
theorem c22_fixed [IsStrictOrderedRing K] (b : ParBound K) (hb : b.min ≠ none ∨ b.max ≠ none) :
    b.isFixed = true ↔ ∃! v, b.testValue v = true := by
  obtain ⟨n, lo, hi⟩ := b
  cases lo with
  | none =>
    cases hi with
    | none => simp at hb
    | some hi =>
      simp only [ParBound.isFixed, reduceCtorEq, decide_false, Bool.false_eq_true,
        ParBound.testValue, Bool.true_and, decide_eq_true_eq, false_iff]
      rintro ⟨v, h1, h2⟩
      have h3 := h2 (v - 1) (le_trans (by linarith) h1)
      linarith
  | some lo =>
    cases hi with
    | none =>
      simp only [ParBound.isFixed, reduceCtorEq, decide_false, Bool.false_eq_true,
        ParBound.testValue, Bool.and_true, decide_eq_true_eq, false_iff]
      rintro ⟨v, h1, h2⟩
      have h3 := h2 (v + 1) (le_trans h1 (by linarith))
      linarith
    | some hi =>
      simp only [ParBound.isFixed, Option.some.injEq, decide_eq_true_eq, ParBound.testValue,
        Bool.and_eq_true]
      constructor
      · rintro rfl
        exact ⟨lo, ⟨le_refl _, le_refl _⟩, fun y hy => le_antisymm hy.2 hy.1⟩
      · rintro ⟨v, ⟨h1, h2⟩, h3⟩
        have e1 := h3 lo ⟨le_refl _, le_trans h1 h2⟩
        have e2 := h3 hi ⟨le_trans h1 h2, le_refl _⟩
        rw [e1, e2]

/-- C22: for a bound with both ends, "free" means that it accepts at least two values. -/
theorem c22_free (b : ParBound K) (lo hi : K) (h1 : b.min = some lo) (h2 : b.max = some hi) :
    b.isFree = .ok true ↔ ∃ v w, v ≠ w ∧ b.testValue v = true ∧ b.testValue w = true := by
  obtain ⟨n, l, h⟩ := b
  simp only at h1 h2
  subst h1 h2
  simp only [ParBound.isFree, Except.ok.injEq, decide_eq_true_eq, ParBound.testValue,
    Bool.and_eq_true]
  constructor
  · intro h
    exact ⟨lo, hi, ne_of_lt h, ⟨le_refl _, le_of_lt h⟩, ⟨le_of_lt h, le_refl _⟩⟩
  · rintro ⟨v, w, hne, ⟨a1, a2⟩, b1, b2⟩
    rcases lt_or_gt_of_ne hne with h | h
    · exact lt_of_le_of_lt a1 (lt_of_lt_of_le h b2)
    · exact lt_of_le_of_lt b1 (lt_of_lt_of_le h a2)

/-- C22 fails for a parameter with no bound at all: it accepts every value and is nevertheless
reported as fixed (`None == None`), so it is missing from the list of free POIs. -/
theorem c22_unbounded_reported_fixed (n : String) (m : ParModel K) (d : Dict (ParBound K))
    (h : d.get? n = some ⟨n, none, none⟩) :
    (∀ v : K, (⟨n, none, none⟩ : ParBound K).testValue v = true) ∧
    (⟨n, none, none⟩ : ParBound K).isFixed = true ∧ n ∉ freePois m d := by
  refine ⟨fun v => by simp [ParBound.testValue], by simp [ParBound.isFixed], ?_⟩
  simp [freePois, h, ParBound.isFixed]

example : (⟨"mu", some 1, none⟩ : ParBound ℚ).and ⟨"mu", some 0, some 4⟩ = some ⟨"mu", some 1, some 4⟩ ∧
    (⟨"mu", some 2, some 2⟩ : ParBound ℚ).isFixed = true := by
  refine ⟨by simp [ParBound.and], by simp [ParBound.isFixed]⟩

/-! ## C21: bounds and start values -/

/-- C21: the bounds used in the fit are, name by name, those of the specification `effBound`:
zero-width at the hypothesis for fixed parameters, else the user's last bound, else the model's. -/
theorem c21_bounds (m : ParModel K) (pois : List (PoiRange K)) (init p : Pars K)
    (bounds : Option (List (ParBound K))) (hypo : Option (Dict K)) (fix : Bool)
    (d : Dict (ParBound K)) (h : setPois m pois init bounds hypo fix = .ok (p, d)) (n : String) :
    d.get? n = effBound pois (bounds.getD []) (if fix then hypo.getD [] else []) n := by
  obtain ⟨_, _, h2, _⟩ := setPois_inv m pois init bounds hypo fix p d h
  exact effBound_eq _ _ _ _ _ h2 n

/-- C21: every start value is the requested one (the hypothesis value, else the initial one) if
that is allowed by the bound used, else the middle of the bound; parameters without a bound keep
the requested value. -/
theorem c21_start (m : ParModel K) (pois : List (PoiRange K)) (init p : Pars K)
    (bounds : Option (List (ParBound K))) (hypo : Option (Dict K)) (fix : Bool)
    (d : Dict (ParBound K)) (hs : Shaped m init)
    (h : setPois m pois init bounds hypo fix = .ok (p, d)) :
    Shaped m p ∧ ∀ n v,
      requested m (hypo.getD []) init n = .ok v →
      match effBound pois (bounds.getD []) (if fix then hypo.getD [] else []) n with
      | none => p.get m n = .ok v
      | some b => (Allows b v → p.get m n = .ok v) ∧
          (¬ Allows b v → ∃ lo hi, b.min = some lo ∧ b.max = some hi ∧
            p.get m n = .ok ((lo + hi) / 2)) := by
  obtain ⟨_, s, f1, f2⟩ := setPois_facts m pois init bounds hypo fix p d hs h
  refine ⟨s, fun n v hv => ?_⟩
  rw [← c21_bounds m pois init p bounds hypo fix d h n]
  cases hd : d.get? n with
  | none => simp only; rw [f2 n hd]; exact hv
  | some b =>
    obtain ⟨v', w, e1, e2, e3⟩ := f1 n b hd
    have : v' = v := Except.ok.inj (e1.symm.trans hv)
    subst this
    simp only
    refine ⟨fun ha => ?_, fun ha => ?_⟩
    · rw [clampVal, if_pos ((allows_iff b v').2 ha)] at e2
      rw [e3, Except.ok.inj e2]
    · rw [clampVal, if_neg (fun hc => ha ((allows_iff b v').1 hc))] at e2
      obtain ⟨nn, lo, hi⟩ := b
      cases lo <;> cases hi <;> simp [ParBound.mid] at e2
      exact ⟨_, _, rfl, rfl, by rw [e3, e2]⟩

/-- C21: the start values lie within the bounds used, whenever those are not inverted. -/
theorem c21_start_within [IsStrictOrderedRing K] (m : ParModel K) (pois : List (PoiRange K))
    (init p : Pars K) (bounds : Option (List (ParBound K))) (hypo : Option (Dict K)) (fix : Bool)
    (d : Dict (ParBound K)) (hs : Shaped m init)
    (h : setPois m pois init bounds hypo fix = .ok (p, d)) (n : String) (b : ParBound K)
    (hb : effBound pois (bounds.getD []) (if fix then hypo.getD [] else []) n = some b)
    (hle : ∀ lo hi, b.min = some lo → b.max = some hi → lo ≤ hi) :
    ∃ w, p.get m n = .ok w ∧ Allows b w := by
  obtain ⟨_, s, f1, f2⟩ := setPois_facts m pois init bounds hypo fix p d hs h
  rw [← c21_bounds m pois init p bounds hypo fix d h n] at hb
  obtain ⟨v', w, e1, e2, e3⟩ := f1 n b hb
  exact ⟨w, e3, (allows_iff b w).1 (clampVal_within b v' w hle e2)⟩

/-- C21: the setup succeeds when all names are parameters of the model and all bounds have both
ends (and a hypothesis is given if it is to be fixed). -/
theorem c21_succeeds (m : ParModel K) (pois : List (PoiRange K)) (init : Pars K)
    (bounds : Option (List (ParBound K))) (hypo : Option (Dict K)) (fix : Bool)
    (hs : Shaped m init) (hh : fix = true → hypo ≠ none)
    (hk1 : ∀ b ∈ pois, Known m b.par ∧ b.min ≠ none ∧ b.max ≠ none)
    (hk2 : ∀ b ∈ bounds.getD [], Known m b.par ∧ b.min ≠ none ∧ b.max ≠ none)
    (hk3 : ∀ e ∈ hypo.getD [], Known m e.1) :
    ∃ p d, setPois m pois init bounds hypo fix = .ok (p, d) := by
  obtain ⟨q1, e1, s1, _⟩ := setHypo_spec m (hypo.getD []) init hs hk3
  have hd : ∃ d, buildBounds pois bounds hypo fix = .ok d := by
    cases fix with
    | false => exact ⟨argBounds pois bounds, by simp [buildBounds]⟩
    | true =>
      cases hypo with
      | none => exact absurd rfl (hh rfl)
      | some h => exact ⟨_, rfl⟩
  obtain ⟨d, hd⟩ := hd
  have hinv := buildBounds_inv _ _ _ _ _ hd
  have hall : ∀ b ∈ d.values, Known m b.par ∧ b.min ≠ none ∧ b.max ≠ none := by
    intro b hb
    obtain ⟨⟨k, b'⟩, he, rfl⟩ := List.mem_map.1 hb
    have hg := (Dict.get?_eq_some_iff d hinv.1 k b').2 he
    rw [effBound_eq _ _ _ _ _ hd k] at hg
    unfold effBound at hg
    cases h1 : lastFor (if fix then hypo.getD [] else []) k with
    | some v =>
      rw [h1] at hg
      have := Option.some.inj hg
      simp only
      rw [← this]
      refine ⟨?_, by simp, by simp⟩
      unfold lastFor at h1
      obtain ⟨e, he1, he2⟩ := Option.map_eq_some_iff.1 h1
      have := List.mem_of_getLast? he1
      simp only [List.mem_filter, decide_eq_true_eq] at this
      have hmem : e ∈ hypo.getD [] := by
        cases fix with
        | true => simpa using this.1
        | false => simp at this
      rw [← this.2]; exact hk3 e hmem
    | none =>
      rw [h1] at hg
      cases h2 : lastBound (bounds.getD []) k with
      | some b1 =>
        rw [h2] at hg
        have := Option.some.inj hg
        subst this
        have := List.mem_of_getLast? h2
        simp only [List.mem_filter, decide_eq_true_eq] at this
        exact hk2 b1 this.1
      | none =>
        rw [h2] at hg
        have := List.mem_of_getLast? hg
        simp only [List.mem_filter, decide_eq_true_eq] at this
        exact hk1 b' this.1
  obtain ⟨p, hp⟩ := clampInit_ok m d.values q1 s1 (fun b hb => (hall b hb).1)
    (fun b hb => (hall b hb).2)
  exact ⟨p, d, by simp [setPois, e1, hd, hp]⟩

/-! Non-vacuity: POI range [0,10], user bound [2,4], start value 7 is moved to 3. -/
example : (setPois exModel [⟨"mu", some 0, some 10⟩] ⟨[7], [0, 0]⟩ (some [⟨"mu", some 2, some 4⟩]) none
    false).toOption.map (fun r => (r.1.pois, r.2)) = some ([3], [("mu", ⟨"mu", some 2, some 4⟩)]) := by
  simp [setPois, setHypo, buildBounds, argBounds, Dict.setAll, Dict.set, clampInit, Dict.values,
    Pars.get, Pars.set, exModel, ParBound.testValue, ParBound.mid, Except.toOption]
  norm_num [Except.toOption, Pars.set, bind, Except.bind, pure, Except.pure]

/-! ## C42: what a fit is allowed to move -/

/-- C42: in any fit, whatever the optimiser does, a POI whose bound has zero width (or inverted
ends) keeps its start value in the best-fit point. -/
theorem c42_fixed_pois_kept (env : FitEnv K) (m : ParModel K) (pois : List (PoiRange K))
    (init p0 : Pars K) (bounds : Option (List (ParBound K))) (hypo : Option (Dict K)) (fix : Bool)
    (d : Dict (ParBound K)) (method : String) (run : OptRun K) (st' : MinSt K) (r : MinRet K)
    (q : Pars K)
    (hm : pois.map (·.par) = m.pois) (hn : m.pois.Nodup) (hs : Shaped m init)
    (hprof : KeepsPois env)
    (hset : setPois m pois init bounds hypo fix = .ok (p0, d))
    (hmin : minimize env m { method := method, initPois := p0, bounds := d } run = .ok (st', r))
    (hq : st'.minPars = some q) (n : String) (hpoi : n ∈ m.pois) (b : ParBound K)
    (hb : effBound pois (bounds.getD []) (if fix then hypo.getD [] else []) n = some b)
    (hfix : b.isFree = .ok false) :
    q.get m n = p0.get m n := by
  obtain ⟨_, _, h2, _⟩ := setPois_inv m pois init bounds hypo fix p0 d hset
  obtain ⟨hinv, s, _, _⟩ := setPois_facts m pois init bounds hypo fix p0 d hs hset
  obtain ⟨ex, hk⟩ := buildBounds_keys _ _ _ _ _ h2 (by rw [hm]; exact hn)
  rw [hm] at hk
  rw [← c21_bounds m pois init p0 bounds hypo fix d hset n] at hb
  obtain ⟨fr, hfr, hcase⟩ := minimize_inv env m _ st' run r hmin
  have hget : ∀ p q : Pars K, q.pois = p.pois → q.get m n = p.get m n := by
    intro p q e
    simp only [Pars.get, if_pos hpoi, e]
  rcases hcase with ⟨_, _, v, q', hp, _, e, _⟩ | ⟨_, es, hes, e, _⟩
  · rw [hq] at e
    have := Option.some.inj e
    subst this
    exact hget _ _ (hprof _ _ (profileAt_inv env _ _ _ hp).1)
  · rw [hq] at e
    cases hl : es.getLast? with
    | none => rw [hl] at e; simp at e
    | some vq =>
      obtain ⟨v, q'⟩ := vq
      rw [hl] at e
      simp only [Option.map_some, Option.some_or] at e
      have := Option.some.inj e
      subst this
      have hmem := List.mem_of_getLast? hl
      obtain ⟨i, hi, he⟩ := List.getElem_of_mem hmem
      have hF := mapM_ok_iff.1 hes
      have hix : i < run.evals.length := hF.length_eq ▸ hi
      have := (List.forall₂_iff_get.1 hF).2 i hix hi
      simp only [List.get_eq_getElem, he] at this
      obtain ⟨p, hu, hpr, _⟩ := evalAt_inv env _ fr _ _ _ this
      obtain ⟨_, _, hall⟩ := evalPoint m d hinv ex hk hn fr hfr _ p0 p s hu
      obtain ⟨b', w, hb', hw, hff, _⟩ := hall n hpoi
      rw [hb] at hb'
      have := Option.some.inj hb'
      subst this
      rw [hget _ _ (hprof _ _ hpr), hw, hff hfix]

/-- C42: if the optimiser stays inside the box it was given, every POI of the best-fit point is
within the bound used for it (bounds not inverted): each optimiser coordinate lands on the POI
whose bound it was given. -/
theorem c42_best_fit_within [IsStrictOrderedRing K] (env : FitEnv K) (m : ParModel K)
    (pois : List (PoiRange K))
    (init p0 : Pars K) (bounds : Option (List (ParBound K))) (hypo : Option (Dict K)) (fix : Bool)
    (d : Dict (ParBound K)) (method : String) (run : OptRun K) (st' : MinSt K) (r : MinRet K)
    (q : Pars K)
    (hm : pois.map (·.par) = m.pois) (hn : m.pois.Nodup) (hs : Shaped m init)
    (hprof : KeepsPois env)
    (hset : setPois m pois init bounds hypo fix = .ok (p0, d))
    (hmin : minimize env m { method := method, initPois := p0, bounds := d } run = .ok (st', r))
    (hbox : ∀ fr, freeBounds d = .ok fr → ∀ x ∈ run.evals,
      List.Forall₂ (fun (b : Nat × ParBound K) v => Allows b.2 v) fr x)
    (hq : st'.minPars = some q) (n : String) (hpoi : n ∈ m.pois) (b : ParBound K)
    (hb : effBound pois (bounds.getD []) (if fix then hypo.getD [] else []) n = some b)
    (hle : ∀ lo hi, b.min = some lo → b.max = some hi → lo ≤ hi) :
    ∃ w, q.get m n = .ok w ∧ Allows b w := by
  obtain ⟨w0, hw0, hal⟩ := c21_start_within m pois init p0 bounds hypo fix d hs hset n b hb hle
  have hkept := c42_fixed_pois_kept env m pois init p0 bounds hypo fix d method run st' r q hm hn hs
    hprof hset hmin hq n hpoi b hb
  obtain ⟨_, _, h2, _⟩ := setPois_inv m pois init bounds hypo fix p0 d hset
  obtain ⟨hinv, s, _, _⟩ := setPois_facts m pois init bounds hypo fix p0 d hs hset
  obtain ⟨ex, hk⟩ := buildBounds_keys _ _ _ _ _ h2 (by rw [hm]; exact hn)
  rw [hm] at hk
  rw [← c21_bounds m pois init p0 bounds hypo fix d hset n] at hb
  obtain ⟨fr, hfr, hcase⟩ := minimize_inv env m _ st' run r hmin
  have hmemb := (Dict.get?_eq_some_iff d hinv.1 n b).1 hb
  obtain ⟨isf, hisf⟩ := (freeBounds_inv d fr hfr).2.2 b (List.mem_map.2 ⟨_, hmemb, rfl⟩)
  cases isf with
  | false => exact ⟨w0, by rw [hkept hisf, hw0], hal⟩
  | true =>
    rcases hcase with ⟨hnil, _⟩ | ⟨_, es, hes, e, _⟩
    · subst hnil
      obtain ⟨i, hi, he⟩ := List.getElem_of_mem (List.mem_map.2 ⟨_, hmemb, rfl⟩ : b ∈ d.values)
      have := ((freeBounds_inv d [] hfr).2.1 i b).2 ⟨(List.getElem?_eq_getElem hi).trans (congrArg some he), hisf⟩
      simp at this
    · rw [hq] at e
      cases hl : es.getLast? with
      | none => rw [hl] at e; simp at e
      | some vq =>
        obtain ⟨v, q'⟩ := vq
        rw [hl] at e
        simp only [Option.map_some, Option.some_or] at e
        have := Option.some.inj e
        subst this
        have hmem := List.mem_of_getLast? hl
        obtain ⟨i, hi, he⟩ := List.getElem_of_mem hmem
        have hF := mapM_ok_iff.1 hes
        have hix : i < run.evals.length := hF.length_eq ▸ hi
        have := (List.forall₂_iff_get.1 hF).2 i hix hi
        simp only [List.get_eq_getElem, he] at this
        obtain ⟨p, hu, hpr, _⟩ := evalAt_inv env _ fr _ _ _ this
        obtain ⟨_, _, hall⟩ := evalPoint m d hinv ex hk hn fr hfr _ p0 p s hu
        obtain ⟨b', w, hb', hw, _, hft⟩ := hall n hpoi
        rw [hb] at hb'
        have := Option.some.inj hb'
        subst this
        have hbx := hbox fr hfr run.evals[i] (List.getElem_mem hix)
        have hbx' : List.Forall₂ (fun (b : Nat × ParBound K) v => b.2.testValue v = true) fr
            run.evals[i] := hbx.imp fun a c h => (allows_iff a.2 c).2 h
        refine ⟨w, ?_, (allows_iff b w).1 (hft hisf hbx')⟩
        have : q.pois = p.pois := hprof _ _ hpr
        rw [← hw]
        simp only [Pars.get, if_pos hpoi, this]

/-- C42: the hypothesis fit of the profile likelihood ratio keeps every POI of the hypothesis at
its hypothesis value, whatever the optimiser does. -/
theorem c42_hypothesis_kept (env : FitEnv K) (m : ParModel K) (pois : List (PoiRange K))
    (method : String) (bounds : Option (List (ParBound K))) (init : Pars K) (hypo : Dict K)
    (runH runF : OptRun K) (out : TmuOut K)
    (hm : pois.map (·.par) = m.pois) (hn : m.pois.Nodup) (hs : Shaped m init)
    (hprof : KeepsPois env) (hhyp : (hypo.map Prod.fst).Nodup)
    (h : tmu env m pois method bounds init hypo runH runF = .ok out) :
    ∀ e ∈ hypo, e.1 ∈ m.pois → out.hypoPars.get m e.1 = .ok e.2 := by
  intro e he hpoi
  obtain ⟨pf, bf, ph, bh, sh, rh, sf, rf, h1, h2, h3, h4, _, _, hq, _, _⟩ :=
    tmu_inv env m pois method bounds init hypo runH runF out h
  have hl : lastFor hypo e.1 = some e.2 := lastFor_nodup hypo hhyp e he
  have hb : effBound pois ((some bf.values).getD []) (if true then (some hypo).getD [] else []) e.1
      = some ⟨e.1, some e.2, some e.2⟩ := by
    simp [effBound, hl]
  have hk := c42_fixed_pois_kept env m pois init ph (some bf.values) (some hypo) true bh method runH
    sh rh out.hypoPars hm hn hs hprof h2 h3 hq e.1 hpoi _ hb (by simp [ParBound.isFree])
  rw [hk]
  have hst := (c21_start m pois init ph (some bf.values) (some hypo) true bh hs h2).2 e.1 e.2
    (by simp [requested, hl])
  rw [hb] at hst
  simp only at hst
  exact hst.1 (by simp [Allows])

/-! ## C43: best-fit point and best-fit NLL -/

/-- C43: when no POI is free, the stored minimum is the NLL of the stored point, which is the
profiled start point. -/
theorem c43_no_free_poi (env : FitEnv K) (m : ParModel K) (st st' : MinSt K) (run : OptRun K)
    (r : MinRet K) (hfr : freeBounds st.bounds = .ok [])
    (h : minimize env m st run = .ok (st', r)) :
    ∃ q v, env.profile st.initPois = .ok q ∧ env.nll q = .ok v ∧
      st'.minPars = some q ∧ st'.minNll = some v := by
  obtain ⟨fr, hfr', hcase⟩ := minimize_inv env m st st' run r h
  have : fr = [] := Except.ok.inj (hfr'.symm.trans hfr)
  subst this
  rcases hcase with ⟨_, _, v, q, hp, e1, e2, _⟩ | ⟨hne, _⟩
  · obtain ⟨a, b⟩ := profileAt_inv env _ _ _ hp
    exact ⟨q, v, a, b, e2, e1⟩
  · exact absurd rfl hne

/-- C43: after a successful fit with free POIs, the stored best-fit point is the profiled point of the last POI values
the optimiser looked at, and the stored best-fit NLL is the minimum the optimiser reported. -/
theorem c43_stored (env : FitEnv K) (m : ParModel K) (st st' : MinSt K) (run : OptRun K)
    (r : MinRet K) (h : minimize env m st run = .ok (st', r)) (hs : run.success = true)
    (fr : List (Nat × ParBound K)) (hfr : freeBounds st.bounds = .ok fr) (hne : fr ≠ [])
    (x : List K) (hlast : run.evals.getLast? = some x) :
    ∃ p q v, updateHypo ((fr.map Prod.fst).zip x) st.initPois = .ok p ∧ env.profile p = .ok q ∧
      env.nll q = .ok v ∧ st'.minPars = some q ∧ st'.minNll = some run.fn ∧ r = .nll run.fn := by
  obtain ⟨fr', hfr', hcase⟩ := minimize_inv env m st st' run r h
  have : fr' = fr := Except.ok.inj (hfr'.symm.trans hfr)
  subst this
  rcases hcase with ⟨h0, _⟩ | ⟨_, es, hes, e, hsu, _⟩
  · exact absurd h0 hne
  · have hF := mapM_ok_iff.1 hes
    have hlen := hF.length_eq
    have hne : run.evals ≠ [] := by
      intro hc; rw [hc] at hlast; simp at hlast
    have hpos : 0 < run.evals.length := List.length_pos_of_ne_nil hne
    have hi : run.evals.length - 1 < es.length := by omega
    have h1 := (List.forall₂_iff_get.1 hF).2 (run.evals.length - 1) (by omega) hi
    rw [List.getLast?_eq_getElem?, List.getElem?_eq_getElem (by omega)] at hlast
    have hx := Option.some.inj hlast
    simp only [List.get_eq_getElem, hx] at h1
    have h3 : es.getLast? = some es[run.evals.length - 1] := by
      rw [List.getLast?_eq_getElem?, ← hlen, List.getElem?_eq_getElem hi]
    obtain ⟨p, h4, h5, h6⟩ := evalAt_inv env _ _ _ (es[run.evals.length - 1]).1 (es[run.evals.length - 1]).2 h1
    exact ⟨p, _, _, h4, h5, h6, by rw [e, h3]; rfl, (hsu hs).1, (hsu hs).2.1⟩

/-- C43, exact extent: the stored best-fit point has the stored best-fit NLL if and only if the NLL profiled at the
last POI values the optimiser looked at is the minimum it reported. -/
theorem c43_consistent_iff (env : FitEnv K) (m : ParModel K) (st st' : MinSt K) (run : OptRun K)
    (r : MinRet K) (h : minimize env m st run = .ok (st', r)) (hs : run.success = true)
    (fr : List (Nat × ParBound K)) (hfr : freeBounds st.bounds = .ok fr) (hne : fr ≠ [])
    (x : List K) (hlast : run.evals.getLast? = some x) :
    (∃ q v, st'.minPars = some q ∧ st'.minNll = some v ∧ env.nll q = .ok v) ↔
      ∃ p q, updateHypo ((fr.map Prod.fst).zip x) st.initPois = .ok p ∧ env.profile p = .ok q ∧
        env.nll q = .ok run.fn := by
  obtain ⟨p, q, v, h1, h2, h3, h4, h5, _⟩ := c43_stored env m st st' run r h hs fr hfr hne x hlast
  constructor
  · rintro ⟨q', v', e1, e2, e3⟩
    have a1 : q = q' := Option.some.inj (h4.symm.trans e1)
    have a2 : run.fn = v' := Option.some.inj (h5.symm.trans e2)
    subst a1 a2
    exact ⟨p, q, h1, h2, e3⟩
  · rintro ⟨p', q', e1, e2, e3⟩
    have a1 : p = p' := Except.ok.inj (h1.symm.trans e1)
    subst a1
    have a2 : q = q' := Except.ok.inj (h2.symm.trans e2)
    subst a2
    exact ⟨q, _, h4, h5, e3⟩

/-- A model with one POI and no NP, whose NLL is `(mu - 1)^2`. -/
def sqEnv : FitEnv ℚ where
  profile := fun p => .ok p
  nll := fun p => match p.pois with
    | [x] => .ok ((x - 1) * (x - 1))
    | _ => .error .indexError

def oneModel : ParModel ℚ := ⟨["mu"], []⟩

/-- C43 is false of the code: the stored NLL is the optimiser's minimum but the stored point is
the last one it evaluated. Here the optimiser finds the exact minimum at 1 and then looks at 3:
the best-fit NLL is 0 and the best-fit point has `mu = 3`, where the NLL is 4. -/
theorem c43_point_is_last_evaluation :
    ∃ (st st' : MinSt ℚ) (run : OptRun ℚ) (r : MinRet ℚ) (q : Pars ℚ),
      minimize sqEnv oneModel st run = .ok (st', r) ∧ run.success = true ∧
      run.x ∈ run.evals ∧
      (∃ fr p, freeBounds st.bounds = .ok fr ∧ evalAt sqEnv st.initPois fr run.x = .ok (run.fn, p)) ∧
      st'.minPars = some q ∧ st'.minNll = some 0 ∧ sqEnv.nll q = .ok 4 := by
  refine ⟨{ method := "scalar", initPois := ⟨[0], []⟩, bounds := [("mu", ⟨"mu", some 0, some 10⟩)] },
    { method := "scalar", initPois := ⟨[0], []⟩, bounds := [("mu", ⟨"mu", some 0, some 10⟩)],
      minNll := some 0, minPars := some ⟨[3], []⟩, minPois := [1] },
    { evals := [[2], [1], [3]], x := [1], fn := 0, success := true }, .nll 0, ⟨[3], []⟩, ?_, rfl, ?_,
    ⟨[(0, ⟨"mu", some 0, some 10⟩)], ⟨[1], []⟩, ?_, ?_⟩, rfl, rfl, ?_⟩
  · simp [minimize, freeBounds, Dict.values, ParBound.isFree, Pars.get, oneModel, evalAt, updateHypo,
      profileAt, sqEnv]
  · simp
  · simp [freeBounds, Dict.values, ParBound.isFree]
  · simp [evalAt, updateHypo, profileAt, sqEnv]
  · norm_num [sqEnv]

/-! ## C44: repeating a fit -/

/-- C44 is false of the code: a minimiser that has once been used with no free POI cannot be used
again with the same bounds: the first call succeeds, the second raises `ValueError`, for every
model and dataset. -/
theorem c44_second_fit_fails (env : FitEnv K) (m : ParModel K) (st st' : MinSt K)
    (run run' : OptRun K) (r : MinRet K) (hfr : freeBounds st.bounds = .ok [])
    (h : minimize env m st run = .ok (st', r)) :
    minimize env m st' run' = .error .valueError := by
  obtain ⟨fr, hfr', hcase⟩ := minimize_inv env m st st' run r h
  have : fr = [] := Except.ok.inj (hfr'.symm.trans hfr)
  subst this
  rcases hcase with ⟨_, hme, v, q, hp, e1, e2, _, hst⟩ | ⟨hne, _⟩
  · subst hst
    simp [minimize, hfr]
  · exact absurd rfl hne

/-- C44: with at least one free POI, repeating a successful fit with the same optimiser run gives
the same result. -/
theorem c44_repeat (env : FitEnv K) (m : ParModel K) (st st' : MinSt K) (run : OptRun K)
    (r : MinRet K) (fr : List (Nat × ParBound K)) (hfr : freeBounds st.bounds = .ok fr)
    (hne : fr ≠ []) (hev : run.evals ≠ [])
    (h : minimize env m st run = .ok (st', r)) :
    minimize env m st' run = .ok (st', r) := by
  unfold minimize at h ⊢
  obtain ⟨fr', hfr', h⟩ := bind_eq_ok.1 h
  have : fr' = fr := Except.ok.inj (hfr'.symm.trans hfr)
  subst this
  obtain ⟨x0, hx0, h⟩ := bind_eq_ok.1 h
  have hl : fr'.length ≠ 0 := by simpa [List.length_eq_zero_iff] using hne
  rw [if_neg (fun hc => hl hc.1)] at h
  simp only at h
  by_cases hm : (if fr'.length > 1 ∧ st.method = "scalar" then "L-BFGS-B" else st.method)
      ∈ ["scalar", "CG", "L-BFGS-B"]
  · rw [if_pos hm] at h
    obtain ⟨es, hes, h⟩ := bind_eq_ok.1 h
    have hlen := (mapM_ok_iff.1 hes).length_eq
    have hesne : es ≠ [] := by
      intro hc
      subst hc
      exact hev (List.length_eq_zero_iff.1 hlen)
    obtain ⟨vq, hvq⟩ : ∃ vq, es.getLast? = some vq := by
      cases hc : es.getLast? with
      | none => simp at hc; exact absurd hc hesne
      | some vq => exact ⟨vq, rfl⟩
    have hmm : ∀ s, (if fr'.length > 1 ∧ (if fr'.length > 1 ∧ s = "scalar" then "L-BFGS-B" else s)
        = "scalar" then "L-BFGS-B" else (if fr'.length > 1 ∧ s = "scalar" then "L-BFGS-B" else s))
        = (if fr'.length > 1 ∧ s = "scalar" then "L-BFGS-B" else s) := by
      intro s
      by_cases h1 : fr'.length > 1 <;> by_cases h2 : s = "scalar" <;> simp [h1, h2]
    cases hsu : run.success with
    | true =>
      rw [hsu, hvq] at h
      simp only [if_true] at h
      have := Except.ok.inj h
      simp only [Prod.mk.injEq] at this
      obtain ⟨rfl, rfl⟩ := this
      simp only [hfr, bind_ok, hx0, hl, false_and, if_false, hmm]
      rw [if_pos hm]
      simp [hes, hvq]
    | false =>
      rw [hsu, hvq] at h
      simp only [Bool.false_eq_true, if_false] at h
      have := Except.ok.inj h
      simp only [Prod.mk.injEq] at this
      obtain ⟨rfl, rfl⟩ := this
      simp only [hfr, bind_ok, hx0, hl, false_and, if_false, hmm]
      rw [if_pos hm]
      simp [hes, hvq]
  · rw [if_neg hm] at h; cases h

/-! ## C20: the profile likelihood ratio -/

/-- C20: whatever the fits did (including reported failures), the value is never negative; it is
twice the NLL difference when the free fit is at least as good, and 0 when it is worse. -/
theorem c20_nonneg [IsStrictOrderedRing K] (env : FitEnv K) (m : ParModel K)
    (pois : List (PoiRange K)) (method : String)
    (bounds : Option (List (ParBound K))) (init : Pars K) (hypo : Dict K) (runH runF : OptRun K)
    (out : TmuOut K) (h : tmu env m pois method bounds init hypo runH runF = .ok out) :
    0 ≤ out.tmu ∧ (out.freeNll ≤ out.hypoNll → out.tmu = 2 * (out.hypoNll - out.freeNll)) ∧
      (out.hypoNll < out.freeNll → out.tmu = 0) := by
  obtain ⟨_, _, _, _, _, _, _, _, _, _, _, _, _, _, _, _, ht⟩ :=
    tmu_inv env m pois method bounds init hypo runH runF out h
  rw [ht]
  unfold tmuValue
  simp only
  refine ⟨?_, fun hle => ?_, fun hlt => ?_⟩
  · split <;> linarith
  · rw [if_neg (by linarith)]
  · rw [if_pos (by linarith)]

/-- C20: if the free fit reaches the smallest profiled NLL over the POI points within the fit
bounds, the hypothesis lies within those bounds, and the hypothesis-fit optimiser reports the
objective at a point of the box it was given, then nothing is clipped: the statistic is exactly
twice the NLL difference. -/
theorem c20_exact [IsStrictOrderedRing K] (env : FitEnv K) (m : ParModel K)
    (pois : List (PoiRange K)) (method : String)
    (bounds : Option (List (ParBound K))) (init : Pars K) (hypo : Dict K) (runH runF : OptRun K)
    (out : TmuOut K)
    (hm : pois.map (·.par) = m.pois) (hn : m.pois.Nodup) (hs : Shaped m init)
    (hhyp : ∀ e ∈ hypo, e.1 ∈ m.pois) (hbp : ∀ b ∈ bounds.getD [], b.par ∈ m.pois)
    (hle : ∀ n b lo hi, effBound pois (bounds.getD []) [] n = some b →
      b.min = some lo → b.max = some hi → lo ≤ hi)
    (hin : ∀ n v b, lastFor hypo n = some v → effBound pois (bounds.getD []) [] n = some b →
      Allows b v)
    (h : tmu env m pois method bounds init hypo runH runF = .ok out)
    (hfree : ∀ p v, Shaped m p → p.nps = init.nps →
      (∀ n ∈ m.pois, ∀ b, effBound pois (bounds.getD []) [] n = some b →
        ∃ w, p.get m n = .ok w ∧ Allows b w) →
      profNll env p v → out.freeNll ≤ v)
    (hrun : ∀ ph bh bf pf, setPois m pois init bounds (some hypo) false = .ok (pf, bf) →
      setPois m pois init (some bf.values) (some hypo) true = .ok (ph, bh) →
      ∀ fr, freeBounds bh = .ok fr → fr ≠ [] → runH.success = true ∧
        List.Forall₂ (fun (b : Nat × ParBound K) v => Allows b.2 v) fr runH.x ∧
        ∃ q, evalAt env ph fr runH.x = .ok (runH.fn, q)) :
    out.tmu = 2 * (out.hypoNll - out.freeNll) := by
  refine (c20_nonneg env m pois method bounds init hypo runH runF out h).2.1 ?_
  obtain ⟨pf, bf, ph, bh, sh, rh, sf, rf, h1, h2, h3, h4, e1, e2, e3, e4, _⟩ :=
    tmu_inv env m pois method bounds init hypo runH runF out h
  obtain ⟨ph1, g1, g2, g3⟩ := setPois_inv m pois init _ _ _ ph bh h2
  obtain ⟨pf1, k1, k2, k3⟩ := setPois_inv m pois init _ _ _ pf bf h1
  obtain ⟨hinv, s, _, _⟩ := setPois_facts m pois init _ _ _ ph bh hs h2
  have hinvf := buildBounds_inv _ _ _ _ _ k2
  obtain ⟨ex, hk⟩ := buildBounds_keys _ _ _ _ _ g2 (by rw [hm]; exact hn)
  rw [hm] at hk
  have hbf : ∀ n, bf.get? n = effBound pois (bounds.getD []) [] n := by
    intro n
    simpa using c21_bounds m pois init pf bounds (some hypo) false bf h1 n
  -- the bounds of the hypothesis fit
  have hbh : ∀ n, bh.get? n = match lastFor hypo n with
      | some v => some ⟨n, some v, some v⟩
      | none => bf.get? n := by
    intro n
    rw [c21_bounds m pois init ph _ _ _ bh h2 n]
    unfold effBound
    simp only [if_true, Option.getD_some]
    cases lastFor hypo n with
    | some v => rfl
    | none =>
      simp only
      rw [hinvf.lastBound_values n]
      cases hb : bf.get? n with
      | some b => rfl
      | none =>
        simp only
        rw [hbf n] at hb
        unfold effBound at hb
        simp only [lastFor, List.filter_nil, List.getLast?_nil, Option.map_none] at hb
        cases hb' : lastBound (bounds.getD []) n with
        | some b => rw [hb'] at hb; simp at hb
        | none => rw [hb'] at hb; simpa using hb
  have hpar : ∀ n b, bh.get? n = some b → n ∈ m.pois := by
    intro n b hb
    rw [hbh n] at hb
    cases hl : lastFor hypo n with
    | some v =>
      obtain ⟨e, he1, _⟩ := Option.map_eq_some_iff.1 hl
      have := List.mem_of_getLast? he1
      simp only [List.mem_filter, decide_eq_true_eq] at this
      rw [← this.2]; exact hhyp e this.1
    | none =>
      rw [hl] at hb
      simp only [hbf n] at hb
      unfold effBound at hb
      simp only [lastFor, List.filter_nil, List.getLast?_nil, Option.map_none] at hb
      cases hb' : lastBound (bounds.getD []) n with
      | some b1 =>
        have := List.mem_of_getLast? hb'
        simp only [List.mem_filter, decide_eq_true_eq] at this
        rw [← this.2]; exact hbp b1 this.1
      | none =>
        rw [hb'] at hb
        simp only at hb
        have := List.mem_of_getLast? hb
        simp only [List.mem_filter, decide_eq_true_eq] at this
        rw [← hm, ← this.2]; exact List.mem_map_of_mem this.1
  have hnps : ph.nps = init.nps := by
    rw [clampInit_nps m bh.values ph1 ph _ g3, setHypo_nps m hypo init ph1 hhyp g1]
    intro b hb
    obtain ⟨⟨k, b'⟩, he, rfl⟩ := List.mem_map.1 hb
    have := hpar k b' ((Dict.get?_eq_some_iff bh hinv.1 k b').2 he)
    rw [hinv.2 _ he]; exact this
  -- the start point of the hypothesis fit lies in the free-fit bounds
  have hstart : ∀ n ∈ m.pois, ∀ b, effBound pois (bounds.getD []) [] n = some b →
      ∃ w, ph.get m n = .ok w ∧ Allows b w := by
    intro n hmem b hb
    cases hl : lastFor hypo n with
    | some v =>
      have hbb := hbh n
      rw [hl] at hbb
      simp only at hbb
      have hst := (c21_start m pois init ph _ _ _ bh hs h2).2 n v (by simp [requested, hl])
      rw [← c21_bounds m pois init ph _ _ _ bh h2 n, hbb] at hst
      simp only at hst
      exact ⟨v, hst.1 (by simp [Allows]), hin n v b hl hb⟩
    | none =>
      have hbb := hbh n
      rw [hl] at hbb
      simp only at hbb
      rw [hbf n, hb] at hbb
      refine c21_start_within m pois init ph _ _ _ bh hs h2 n b ?_ (fun lo hi => hle n b lo hi hb)
      rw [← c21_bounds m pois init ph _ _ _ bh h2 n, hbb]
  obtain ⟨fr, hfr, hcase⟩ := minimize_inv env m _ sh runH rh h3
  rcases hcase with ⟨_, _, v, q, hp, ev, _⟩ | ⟨hne, es, hes, e, hsu, _⟩
  · rw [e1] at ev
    have := Option.some.inj ev
    obtain ⟨a1, a2⟩ := profileAt_inv env _ _ _ hp
    rw [this]
    exact hfree ph v s hnps hstart ⟨q, a1, a2⟩
  · obtain ⟨hs1, hbox, q, hev⟩ := hrun ph bh bf pf h1 h2 fr hfr hne
    have := (hsu hs1).1
    rw [e1] at this
    rw [Option.some.inj this]
    obtain ⟨p, hu, hpr, hv⟩ := evalAt_inv env _ fr _ _ _ hev
    obtain ⟨sp, np, hall⟩ := evalPoint m bh hinv ex hk hn fr hfr _ ph p s hu
    refine hfree p runH.fn sp (np.trans hnps) ?_ ⟨q, hpr, hv⟩
    intro n hmem b hb
    obtain ⟨b', w, hb', hw, hff, hft⟩ := hall n hmem
    have hmemb := (Dict.get?_eq_some_iff bh hinv.1 n b').1 hb'
    obtain ⟨isf, hisf⟩ := (freeBounds_inv bh fr hfr).2.2 b' (List.mem_map.2 ⟨_, hmemb, rfl⟩)
    cases isf with
    | false =>
      obtain ⟨w', hw', hal⟩ := hstart n hmem b hb
      have : w' = w := Except.ok.inj (hw'.symm.trans (hff hisf))
      exact ⟨w, hw, this ▸ hal⟩
    | true =>
      have hbx' : List.Forall₂ (fun (b : Nat × ParBound K) v => b.2.testValue v = true) fr
          runH.x := hbox.imp fun a c h => (allows_iff a.2 c).2 h
      have hal := (allows_iff b' w).1 (hft hisf hbx')
      rw [hbh n] at hb'
      cases hl : lastFor hypo n with
      | some v =>
        rw [hl] at hb'
        have := Option.some.inj hb'
        rw [← this] at hisf
        simp [ParBound.isFree] at hisf
      | none =>
        rw [hl] at hb'
        simp only [hbf n, hb] at hb'
        rw [Option.some.inj hb']
        exact ⟨w, hw, hal⟩

/-- C20: a failed minimisation is not reported. `minimize` returns the pair `(None, None)`, which
is not `None`, and the ratio is computed from the last evaluation: here both fits fail and a
number is returned. -/
theorem c20_failure_not_reported :
    ∃ out, tmu sqEnv oneModel [⟨"mu", some 0, some 10⟩] "scalar" none ⟨[0], []⟩ [("mu", 2)]
      ⟨[], [], 0, false⟩ ⟨[[5], [4]], [], 0, false⟩ = .ok out ∧
      out.hypoNll = 1 ∧ out.freeNll = 9 ∧ out.tmu = 0 := by
  refine ⟨⟨0, 1, 9, ⟨[2], []⟩, ⟨[4], []⟩⟩, ?_, rfl, rfl, rfl⟩
  simp [tmu, setPois, setHypo, buildBounds, argBounds, Dict.setAll, Dict.set, clampInit, Dict.values,
    Pars.get, Pars.set, oneModel, ParBound.testValue, minimize, freeBounds, ParBound.isFree,
    profileAt, evalAt, updateHypo, sqEnv, tmuValue]
  norm_num

/-! Non-vacuity of `c20_exact`, `c42_hypothesis_kept`: hypothesis 2, exact free fit at 1. -/
example : tmu sqEnv oneModel [⟨"mu", some 0, some 10⟩] "scalar" none ⟨[0], []⟩ [("mu", 2)]
      ⟨[], [], 0, false⟩ ⟨[[5], [1]], [1], 0, true⟩ = .ok ⟨2, 1, 0, ⟨[2], []⟩, ⟨[1], []⟩⟩ := by
  simp [tmu, setPois, setHypo, buildBounds, argBounds, Dict.setAll, Dict.set, clampInit, Dict.values,
    Pars.get, Pars.set, oneModel, ParBound.testValue, minimize, freeBounds, ParBound.isFree,
    profileAt, evalAt, updateHypo, sqEnv, tmuValue]
  norm_num

end Verif.Props
