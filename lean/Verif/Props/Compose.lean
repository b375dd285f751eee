import Verif.Lemmas.ComposeMdl
import Verif.Lemmas.DemoNP
/-!
# C67, C68: the profile likelihood ratio of a model, from the fits down to the likelihood
(and C20, C42 for the fits of an actual model)
-/
namespace Verif.Props
open Verif Spec
section
variable {K : Type} [Field K] [LinearOrder K]

/-- C20: with optimisers that find the minima of their objectives, and no inverted bounds, the NLL of the
hypothesis fit is the smallest profiled NLL over the points that agree with the hypothesis and respect the
bounds, the NLL of the free fit the smallest over the points that respect the bounds, and the statistic is
twice their difference, or 0 if that is negative. -/
theorem c20_is_profile_ratio [IsStrictOrderedRing K] (env : FitEnv K) (m : ParModel K)
    (pois : List (PoiRange K)) (method : String)
    (bounds : Option (List (ParBound K))) (init : Pars K) (hypo : Dict K) (runH runF : OptRun K)
    (out : TmuOut K)
    (hm : pois.map (·.par) = m.pois) (hn : m.pois.Nodup) (hs : Shaped m init)
    (hhyp : ∀ e ∈ hypo, e.1 ∈ m.pois) (hbp : ∀ b ∈ bounds.getD [], b.par ∈ m.pois)
    (hle : ∀ n b lo hi, effBound pois (bounds.getD []) [] n = some b →
      b.min = some lo → b.max = some hi → lo ≤ hi)
    (h : tmu env m pois method bounds init hypo runH runF = .ok out)
    (hopt : BothOptimal env m pois bounds init hypo runH runF) :
    IsLeast (profNlls env m pois (bounds.getD []) hypo init.nps) out.hypoNll ∧
    IsLeast (profNlls env m pois (bounds.getD []) [] init.nps) out.freeNll ∧
    out.tmu = max 0 (2 * (out.hypoNll - out.freeNll)) := by
  obtain ⟨pf, bf, ph, bh, sh, rh, sf, rf, h1, h2, h3, h4, e1, e2, e3, e4, e5⟩ :=
    tmu_inv env m pois method bounds init hypo runH runF out h
  obtain ⟨oF, oH⟩ := hopt pf bf ph bh h1 h2
  obtain ⟨_, _, k2, _⟩ := setPois_inv m pois init _ _ _ pf bf h1
  have hev := effBound_values pois bounds hypo hypo bf k2
  have hev0 := effBound_values pois bounds hypo [] bf k2
  have hleH : ∀ n b lo hi, effBound pois (bounds.getD []) hypo n = some b →
      b.min = some lo → b.max = some hi → lo ≤ hi := by
    intro n b lo hi hb hlo hhi
    cases hl : lastFor hypo n with
    | some v =>
      simp only [effBound, hl, Option.some.injEq] at hb
      subst hb
      simp only [Option.some.injEq] at hlo hhi
      rw [← hlo, ← hhi]
    | none =>
      refine hle n b lo hi ?_ hlo hhi
      unfold effBound at hb ⊢
      rw [hl] at hb
      exact hb
  obtain ⟨vf, f1, f2⟩ := fit_least env m pois init pf bounds hypo false bf method runF sf rf hm hn hs
    hhyp hbp (by simpa using hle) h1 h4 oF
  have hbf : ∀ b ∈ (some bf.values).getD [], b.par ∈ m.pois := by
    intro b hb
    have hinv := buildBounds_inv _ _ _ _ _ k2
    obtain ⟨⟨k, b'⟩, he, rfl⟩ := List.mem_map.1 hb
    rw [hinv.2 _ he]
    have := (Dict.get?_eq_some_iff bf hinv.1 k b').2 he
    rw [effBound_eq _ _ _ _ _ k2 k] at this
    exact effBound_mem m pois (bounds.getD []) [] hm (by simp) hbp k b' (by simpa using this)
  obtain ⟨vh, g1, g2⟩ := fit_least env m pois init ph (some bf.values) hypo true bh method runH sh rh hm hn hs
    hhyp hbf (by
      intro n b lo hi hb
      simp only [Option.getD_some, if_true] at hb
      rw [hev n] at hb
      exact hleH n b lo hi hb) h2 h3 oH
  have hvf : vf = out.freeNll := Option.some.inj (f1.symm.trans e2)
  have hvh : vh = out.hypoNll := Option.some.inj (g1.symm.trans e1)
  subst hvf hvh
  refine ⟨?_, by simpa using f2, ?_⟩
  · have hset : profNlls env m pois (bounds.getD []) hypo init.nps =
        profNlls env m pois bf.values hypo init.nps := by
      simp only [profNlls, InBox]
      congr 1
      funext v
      simp only [hev]
    rw [hset]
    simpa using g2
  · rw [e5]
    simp only [tmuValue]
    split_ifs with hlt
    · exact (max_eq_left hlt.le).symm
    · exact (max_eq_right (not_lt.1 hlt)).symm

end

variable {n P : Nat}

/-- The NP profiling of a model keeps the POIs: the assumption made on the environment in C42 holds for
every model and dataset. -/
theorem c42_model_keeps_pois (m : Mdl n P) (A : Mdl.Arrays) (d : Mdl.DataV P) (niter : Nat)
    (floor : Option ℝ) : KeepsPois (m.fitEnv A d niter floor) := by
  intro p q h
  obtain ⟨_, _, θ, _, rfl⟩ := Mdl.fitEnv_profile_inv h
  rfl

theorem mapM_mem_of {α β ε : Type} {f : α → Except ε β} {l : List α} {r : List β} (h : l.mapM f = .ok r)
    (b : β) (hb : b ∈ r) : ∃ a ∈ l, f a = .ok b := by
  have h2 := mapM_ok_iff.1 h
  clear h
  induction h2 with
  | nil => simp at hb
  | cons h1 _ ih =>
    rcases List.mem_cons.1 hb with rfl | hb
    · exact ⟨_, by simp, h1⟩
    · obtain ⟨a, ha, e⟩ := ih hb
      exact ⟨a, by simp [ha], e⟩

theorem inBox_iff (m : Mdl n P) (pois : List (PoiRange ℝ)) (bounds : List (ParBound ℝ)) (fixed : Dict ℝ)
    (hn : (List.ofFn m.pois).Nodup) (p : Pars ℝ) (hl : p.pois.length = n) :
    InBox m.parModel pois bounds fixed p ↔ PoisAllowed m pois bounds fixed (fun i => p.pois.getD i 0) := by
  have hget : ∀ i : Fin n, p.get m.parModel (m.pois i) = .ok (p.pois.getD i 0) := by
    intro i
    have hmem : m.pois i ∈ m.parModel.pois := by simp [Mdl.parModel, List.mem_ofFn]
    have hio : m.parModel.pois.idxOf (m.pois i) = i := by
      have := hn.idxOf_getElem i.1 (by simp)
      simpa [Mdl.parModel] using this
    rw [get_poi _ _ _ hmem, hio, List.getD_eq_getElem?_getD,
      List.getElem?_eq_getElem (by rw [hl]; exact i.2)]
    rfl
  constructor
  · intro h i b hb
    obtain ⟨w, hw, hal⟩ := h (m.pois i) (by simp [Mdl.parModel, List.mem_ofFn]) b hb
    rw [hget i] at hw
    have := Except.ok.inj hw
    dsimp only
    rw [this]; exact hal
  · intro h k hk b hb
    obtain ⟨i, rfl⟩ := (List.mem_ofFn' _ _).1 hk
    exact ⟨_, hget i, h i b hb⟩

/-- C67: whatever the hypothesis-fit optimiser must do is done (it is not used when all POIs are fixed),
and whatever values of the objective the free fit stops at, the statistic of the POI values from which an
Asimov dataset was generated (at nominal NPs) is 0 on that dataset, for any number of profiling
iterations and any floor below the yields. -/
theorem c67_own_asimov (m : Mdl n P) (A : Mdl.Arrays) (hH : m.HPsd) (hS : m.HSymm)
    (hn : (List.ofFn m.pois).Nodup)
    (R : Nat → ℝ) (hR : m.refTot A = .ok R) (hR0 : ∀ b < m.nbinsPoisson, 0 < R b)
    (x₀ : Fin n → ℝ) (d : Mdl.DataV P) (hd : m.generateAsimov A x₀ 0 = .ok d)
    (hp : ∀ b < m.nbinsPoisson, 0 < d.counts b) (niter : Nat) (floor : Option ℝ)
    (hfl : ∀ f, floor = some f → ∀ b < m.nbinsPoisson, f ≤ d.counts b)
    (pois : List (PoiRange ℝ)) (hm : pois.map (·.par) = List.ofFn m.pois)
    (method : String) (bounds : Option (List (ParBound ℝ))) (hypo : Dict ℝ)
    (hhyp : ∀ e ∈ hypo, e.1 ∈ List.ofFn m.pois) (hbp : ∀ b ∈ bounds.getD [], b.par ∈ List.ofFn m.pois)
    (hle : ∀ n b lo hi, effBound pois (bounds.getD []) hypo n = some b →
      b.min = some lo → b.max = some hi → lo ≤ hi)
    (hx : PoisAllowed m pois (bounds.getD []) hypo x₀)
    (init : List ℝ) (hi : init.length = n) (runH runF : OptRun ℝ) (out : TmuOut ℝ)
    (h : tmu (m.fitEnv A d niter floor) m.parModel pois method bounds ⟨init, List.replicate P 0⟩ hypo
      runH runF = .ok out)
    (hoptH : ∀ pf bf ph bh,
      setPois m.parModel pois ⟨init, List.replicate P 0⟩ bounds (some hypo) false = .ok (pf, bf) →
      setPois m.parModel pois ⟨init, List.replicate P 0⟩ (some bf.values) (some hypo) true = .ok (ph, bh) →
      ∀ fr, freeBounds bh = .ok fr → fr ≠ [] → Optimal (m.fitEnv A d niter floor) ph fr runH)
    (hF : runF.success = true → ∃ p, profNll (m.fitEnv A d niter floor) p runF.fn)
    (hprof : ∃ θ, m.profileNps A x₀ d niter 0 = .ok θ) :
    out.tmu = 0 ∧ m.nll A x₀ 0 d = .ok (.fin out.hypoNll) := by
  obtain ⟨v0, hv0, hv0f, hmin⟩ := Mdl.asimov_floor hH hS hR hR0 hd hp floor hfl
  have hs : Shaped m.parModel ⟨init, List.replicate P 0⟩ := by
    simp [Shaped, Mdl.parModel, hi]
  obtain ⟨pf, bf, ph, bh, sh, rh, sf, rf, h1, h2, h3, h4, e1, e2, e3, e4, e5⟩ :=
    tmu_inv _ m.parModel pois method bounds _ hypo runH runF out h
  have oH := hoptH pf bf ph bh h1 h2
  obtain ⟨_, _, k2, _⟩ := setPois_inv m.parModel pois _ _ _ _ pf bf h1
  have hev := effBound_values pois bounds hypo hypo bf k2
  have hbf : ∀ b ∈ (some bf.values).getD [], b.par ∈ m.parModel.pois := by
    intro b hb
    have hinv := buildBounds_inv _ _ _ _ _ k2
    obtain ⟨⟨k, b'⟩, he, rfl⟩ := List.mem_map.1 hb
    rw [hinv.2 _ he]
    have := (Dict.get?_eq_some_iff bf hinv.1 k b').2 he
    rw [effBound_eq _ _ _ _ _ k2 k] at this
    exact effBound_mem m.parModel pois (bounds.getD []) [] hm (by simp) hbp k b' (by simpa using this)
  obtain ⟨vh, g1, g2, g3⟩ := fit_least _ m.parModel pois _ ph (some bf.values) hypo true bh method runH sh rh hm
    hn hs hhyp hbf (by
      intro n b lo hi hb
      simp only [Option.getD_some, if_true] at hb
      rw [hev n] at hb
      exact hle n b lo hi hb) h2 h3 oH
  have hvh : vh = out.hypoNll := Option.some.inj (g1.symm.trans e1)
  subst hvh
  -- every profiled NLL is at least that of the generating point
  have hall : ∀ p v, profNll (m.fitEnv A d niter floor) p v → v0 ≤ v := by
    intro p v hpv
    obtain ⟨_, _, θ, _, hv⟩ := Mdl.profNll_inv hpv
    exact hmin _ _ _ hv
  have hle0 : out.hypoNll ≤ v0 := by
    refine g3 ⟨⟨List.ofFn x₀, List.replicate P 0⟩, by simp [Mdl.parModel], rfl, ?_, ?_⟩
    · simp only [Option.getD_some, if_true]
      rw [inBox_iff m pois _ _ hn _ (by simp)]
      simp only [Mdl.getD_ofFn]
      intro i b hb
      rw [hev] at hb
      exact hx i b hb
    · obtain ⟨θ, hθ⟩ := hprof
      have := Mdl.profileNps_asimov hd niter hθ
      subst this
      have := Mdl.profNll_intro (fl := floor) hθ hv0f
      have e : List.ofFn (0 : Fin P → ℝ) = List.replicate P 0 := by
        exact List.ofFn_const P (0 : ℝ)
      rwa [e] at this
  have hge0 : v0 ≤ out.hypoNll := by
    obtain ⟨p, _, _, _, hpv⟩ := g2
    exact hall p _ hpv
  have heq : out.hypoNll = v0 := le_antisymm hle0 hge0
  have hfree : v0 ≤ out.freeNll := by
    obtain ⟨fr, hfr, hcase⟩ := minimize_inv _ m.parModel _ sf runF rf h4
    rcases hcase with ⟨_, _, v, q, hpq, ev, _⟩ | ⟨hne, es, hes, e, hsu, hfa⟩
    · obtain ⟨a1, a2⟩ := profileAt_inv _ _ _ _ hpq
      have : v = out.freeNll := Option.some.inj (ev.symm.trans e2)
      exact this ▸ hall _ v ⟨q, a1, a2⟩
    · cases hsc : runF.success with
      | true =>
        have : runF.fn = out.freeNll := Option.some.inj ((hsu hsc).1.symm.trans e2)
        obtain ⟨p, hpv⟩ := hF hsc
        exact this ▸ hall p _ hpv
      | false =>
        have hl := (hfa hsc).1
        simp only [Option.or_none] at hl
        rw [e2] at hl
        obtain ⟨⟨v, q⟩, hlast, hv⟩ := Option.map_eq_some_iff.1 hl.symm
        have hmem := List.mem_of_getLast? hlast
        obtain ⟨y, hy, hev'⟩ := mapM_mem_of hes _ hmem
        obtain ⟨p, _, hpr, hnl⟩ := evalAt_inv _ _ fr _ _ _ hev'
        simp only at hv
        exact hv ▸ hall p v ⟨q, hpr, hnl⟩
  refine ⟨?_, by rw [heq]; exact hv0⟩
  rw [e5]
  simp only [tmuValue]
  by_cases hlt : 2 * (out.hypoNll - out.freeNll) < 0
  · rw [if_pos hlt]
  · rw [if_neg hlt]; linarith

theorem values_not_free (d : Dict (ParBound ℝ)) (fr : List (Nat × ParBound ℝ)) (h : freeBounds d = .ok fr)
    (hd : ∀ b ∈ d.values, b.isFree = .ok false) : fr = [] := by
  obtain ⟨_, f2, _⟩ := freeBounds_inv d fr h
  rw [List.eq_nil_iff_forall_not_mem]
  rintro ⟨i, b⟩ hib
  obtain ⟨e1, e2⟩ := (f2 i b).1 hib
  rw [hd b (List.mem_of_getElem? e1)] at e2
  cases e2

/-- The fit of a hypothesis that gives the values of all the POIs: it starts at the hypothesis and nothing is free. -/
theorem hypo_fixed (m : Mdl n P) (hn : (List.ofFn m.pois).Nodup) (x₀ : Fin n → ℝ)
    (pois : List (PoiRange ℝ)) (hm : pois.map (·.par) = List.ofFn m.pois)
    (bounds : Option (List (ParBound ℝ))) (hypo : Dict ℝ)
    (hhyp : ∀ e ∈ hypo, e.1 ∈ List.ofFn m.pois) (hbp : ∀ b ∈ bounds.getD [], b.par ∈ List.ofFn m.pois)
    (hfull : ∀ i, lastFor hypo (m.pois i) = some (x₀ i)) (init : List ℝ) (hi : init.length = n) : ∀ pf bf ph bh,
      setPois m.parModel pois ⟨init, List.replicate P 0⟩ bounds (some hypo) false = .ok (pf, bf) →
      setPois m.parModel pois ⟨init, List.replicate P 0⟩ (some bf.values) (some hypo) true = .ok (ph, bh) →
      ph = ⟨List.ofFn x₀, List.replicate P 0⟩ ∧ ∀ fr, freeBounds bh = .ok fr → fr = [] := by
  have hs : Shaped m.parModel ⟨init, List.replicate P 0⟩ := by
    simp [Shaped, Mdl.parModel, hi]
  have heff : ∀ bs k b, effBound pois bs hypo k = some b → (∃ i, k = m.pois i) → ∃ i, k = m.pois i ∧
      b = ⟨k, some (x₀ i), some (x₀ i)⟩ := by
    rintro bs k b hb ⟨i, rfl⟩
    refine ⟨i, rfl, ?_⟩
    unfold effBound at hb
    rw [hfull i] at hb
    exact (Option.some.inj hb).symm
  have hmemb : ∀ k, k ∈ List.ofFn m.pois → ∃ i, k = m.pois i := by
    intro k hk
    obtain ⟨i, rfl⟩ := (List.mem_ofFn' _ _).1 hk
    exact ⟨i, rfl⟩
  intro pf bf ph bh h1 h2
  obtain ⟨_, _, k2, _⟩ := setPois_inv m.parModel pois _ _ _ _ pf bf h1
  obtain ⟨ph1, g1, g2, g3⟩ := setPois_inv m.parModel pois _ _ _ _ ph bh h2
  obtain ⟨hinv, s, hb1, hb2⟩ := setPois_facts m.parModel pois _ _ _ _ ph bh hs h2
  have hev := effBound_values pois bounds hypo hypo bf k2
  have hbh : ∀ k, bh.get? k = effBound pois (bounds.getD []) hypo k := by
    intro k
    rw [← hev k]
    simpa using effBound_eq _ _ _ _ _ g2 k
  have hval : ∀ b ∈ bh.values, ∃ i, b = ⟨m.pois i, some (x₀ i), some (x₀ i)⟩ := by
    intro b hb
    obtain ⟨⟨k, b'⟩, he, rfl⟩ := List.mem_map.1 hb
    have hg := (Dict.get?_eq_some_iff bh hinv.1 k b').2 he
    rw [hbh k] at hg
    have hk := effBound_mem m.parModel pois (bounds.getD []) hypo hm hhyp hbp k b' hg
    obtain ⟨i, rfl, e⟩ := heff _ k b' hg (hmemb k hk)
    exact ⟨i, e⟩
  refine ⟨?_, fun fr hfr => values_not_free bh fr hfr ?_⟩
  · have e1 : ph.nps = List.replicate P 0 := by
      rw [clampInit_nps m.parModel bh.values ph1 ph _ g3, setHypo_nps m.parModel hypo _ ph1 hhyp g1]
      intro b hb
      obtain ⟨i, rfl⟩ := hval b hb
      simp [Mdl.parModel, List.mem_ofFn]
    have e2 : ph.pois = List.ofFn x₀ := by
      have hl : ph.pois.length = n := by simpa [Mdl.parModel] using s.1
      refine List.ext_getElem (by simp [hl]) fun j hj1 hj2 => ?_
      have hj : j < n := by rw [← hl]; exact hj1
      have hmem : m.pois ⟨j, hj⟩ ∈ m.parModel.pois := by simp [Mdl.parModel, List.mem_ofFn]
      have hio : m.parModel.pois.idxOf (m.pois ⟨j, hj⟩) = j := by
        have := hn.idxOf_getElem j (by simpa using hj)
        simpa [Mdl.parModel] using this
      have hst := (c21_start m.parModel pois _ ph _ _ _ bh hs h2).2 (m.pois ⟨j, hj⟩) (x₀ ⟨j, hj⟩)
        (by simp [requested, hfull])
      have hb' : effBound pois ((some bf.values).getD []) (if true then (some hypo).getD [] else [])
          (m.pois ⟨j, hj⟩) = some ⟨m.pois ⟨j, hj⟩, some (x₀ ⟨j, hj⟩), some (x₀ ⟨j, hj⟩)⟩ := by
        simp [effBound, hfull]
      rw [hb'] at hst
      have hgo := hst.1 (by simp [Allows])
      rw [get_poi _ _ _ hmem, hio, List.getElem?_eq_getElem hj1] at hgo
      rw [Option.some.inj hgo]
      simp
    rcases ph with ⟨a, b⟩
    simp only at e1 e2
    rw [e1, e2]
  · intro b hb
    obtain ⟨i, rfl⟩ := hval b hb
    simp [ParBound.isFree]

/-- C67 for a hypothesis that gives the values of all the POIs: no assumption on the hypothesis fit is
needed.  The hypothesis may be outside the bounds of the free fit. -/
theorem c67_full_hypothesis (m : Mdl n P) (A : Mdl.Arrays) (hH : m.HPsd) (hS : m.HSymm)
    (hn : (List.ofFn m.pois).Nodup)
    (R : Nat → ℝ) (hR : m.refTot A = .ok R) (hR0 : ∀ b < m.nbinsPoisson, 0 < R b)
    (x₀ : Fin n → ℝ) (d : Mdl.DataV P) (hd : m.generateAsimov A x₀ 0 = .ok d)
    (hp : ∀ b < m.nbinsPoisson, 0 < d.counts b) (niter : Nat) (floor : Option ℝ)
    (hfl : ∀ f, floor = some f → ∀ b < m.nbinsPoisson, f ≤ d.counts b)
    (pois : List (PoiRange ℝ)) (hm : pois.map (·.par) = List.ofFn m.pois)
    (method : String) (bounds : Option (List (ParBound ℝ))) (hypo : Dict ℝ)
    (hhyp : ∀ e ∈ hypo, e.1 ∈ List.ofFn m.pois) (hbp : ∀ b ∈ bounds.getD [], b.par ∈ List.ofFn m.pois)
    (hfull : ∀ i, lastFor hypo (m.pois i) = some (x₀ i))
    (init : List ℝ) (hi : init.length = n) (runH runF : OptRun ℝ) (out : TmuOut ℝ)
    (h : tmu (m.fitEnv A d niter floor) m.parModel pois method bounds ⟨init, List.replicate P 0⟩ hypo
      runH runF = .ok out)
    (hF : runF.success = true → ∃ p, profNll (m.fitEnv A d niter floor) p runF.fn) :
    out.tmu = 0 ∧ m.nll A x₀ 0 d = .ok (.fin out.hypoNll) := by
  have hs : Shaped m.parModel ⟨init, List.replicate P 0⟩ := by
    simp [Shaped, Mdl.parModel, hi]
  have heff : ∀ bs k b, effBound pois bs hypo k = some b → (∃ i, k = m.pois i) → ∃ i, k = m.pois i ∧
      b = ⟨k, some (x₀ i), some (x₀ i)⟩ := by
    rintro bs k b hb ⟨i, rfl⟩
    refine ⟨i, rfl, ?_⟩
    unfold effBound at hb
    rw [hfull i] at hb
    exact (Option.some.inj hb).symm
  have hmemb : ∀ k, k ∈ List.ofFn m.pois → ∃ i, k = m.pois i := by
    intro k hk
    obtain ⟨i, rfl⟩ := (List.mem_ofFn' _ _).1 hk
    exact ⟨i, rfl⟩
  -- nothing is free in the hypothesis fit
  have hnone := hypo_fixed m hn x₀ pois hm bounds hypo hhyp hbp hfull init hi
  refine c67_own_asimov m A hH hS hn R hR hR0 x₀ d hd hp niter floor hfl pois hm method bounds hypo hhyp hbp
    ?_ ?_ init hi runH runF out h ?_ hF ?_
  · intro k b lo hi' hb hlo hhi
    have hk := effBound_mem m.parModel pois (bounds.getD []) hypo hm hhyp hbp k b hb
    obtain ⟨i, rfl, rfl⟩ := heff _ k b hb (hmemb k hk)
    simp only [Option.some.injEq] at hlo hhi
    rw [← hlo, ← hhi]
  · intro i b hb
    unfold effBound at hb
    rw [hfull i] at hb
    have := Option.some.inj hb
    subst this
    simp [Allows]
  · intro pf bf ph bh h1 h2 fr hfr hne
    exact absurd ((hnone pf bf ph bh h1 h2).2 fr hfr) hne
  · obtain ⟨pf, bf, ph, bh, sh, rh, sf, rf, h1, h2, h3, h4, _⟩ :=
      tmu_inv _ m.parModel pois method bounds _ hypo runH runF out h
    obtain ⟨e, hfr0⟩ := hnone pf bf ph bh h1 h2
    obtain ⟨fr, hfr, hcase⟩ := minimize_inv _ m.parModel _ sh runH rh h3
    rcases hcase with ⟨_, _, v, q, hpq, ev, _⟩ | ⟨hne, _⟩
    · obtain ⟨a1, a2⟩ := profileAt_inv _ _ _ _ hpq
      simp only [e] at a1
      obtain ⟨_, _, θ, hθ, _⟩ := Mdl.fitEnv_profile_inv a1
      simp only [Mdl.getD_ofFn] at hθ
      refine ⟨θ, ?_⟩
      have e0 : (fun a : Fin P => (List.replicate P (0 : ℝ)).getD a 0) = 0 := by
        funext a
        simp [List.getD_eq_getElem?_getD]
      rwa [e0] at hθ
    · exact absurd (hfr0 fr hfr) hne

theorem ratio_not_clipped (m : Mdl n P) (A : Mdl.Arrays) (d : Mdl.DataV P)
    (pois : List (PoiRange ℝ)) (bounds : List (ParBound ℝ)) (hypo : Dict ℝ) (a b : ℝ)
    (hin : ∀ i v c, lastFor hypo (m.pois i) = some v → effBound pois bounds [] (m.pois i) = some c → Allows c v)
    (ha : IsLeast (nllsWhere m A d (PoisAllowed m pois bounds hypo)) a)
    (hb : IsLeast (nllsWhere m A d (PoisAllowed m pois bounds [])) b) :
    max 0 (2 * (a - b)) = 2 * (a - b) := by
  refine max_eq_right ?_
  have : b ≤ a := by
    refine hb.2 ?_
    obtain ⟨x, θ, hx, hv⟩ := ha.1
    refine ⟨x, θ, fun i c hc => ?_, hv⟩
    cases hl : lastFor hypo (m.pois i) with
    | some v =>
      have h1 := hx i ⟨m.pois i, some v, some v⟩ (by simp [effBound, hl])
      have e : x i = v := le_antisymm (h1.2 v rfl) (h1.1 v rfl)
      rw [e]; exact hin i v c hl hc
    | none =>
      refine hx i c ?_
      unfold effBound at hc ⊢
      rw [hl]
      exact hc
  linarith

/-- C68: for a model with Gaussian channels only, symmetric linear impacts and constraints at most as wide
as the variations, one profiling iteration (the default) and optimisers that find the minima of their
objectives: the NLL of the hypothesis fit is the smallest NLL of the model over all NPs and all POIs
allowed at the hypothesis, the NLL of the free fit the smallest over all NPs and all POIs allowed by the
bounds, and the statistic is twice the difference: the exact profile likelihood ratio (0 instead of a
negative number if the hypothesis is outside the bounds). -/
theorem c68_gaussian_exact_ratio (m : Mdl n P) (A : Mdl.Arrays) (d : Mdl.DataV P)
    (ha : m.use_asym_impacts = false) (hlin : m.use_linear_nps = true) (hc : m.cutoff = 0)
    (hl : m.use_lognormal_terms = false) (hS : m.HSymm) (hH : m.HPsd) (hG : m.nbinsPoisson = 0)
    (hw : ∀ p, ∃ c, (m.nps p).scaledConstraint = .ok c ∧ c ≠ 0 ∧ |c| ≤ 1)
    (N0 : Nat → ℝ) (h0 : m.refTot A = .ok N0) (hn : (List.ofFn m.pois).Nodup) (floor : Option ℝ)
    (pois : List (PoiRange ℝ)) (hm : pois.map (·.par) = List.ofFn m.pois)
    (method : String) (bounds : Option (List (ParBound ℝ))) (hypo : Dict ℝ)
    (hhyp : ∀ e ∈ hypo, e.1 ∈ List.ofFn m.pois) (hbp : ∀ b ∈ bounds.getD [], b.par ∈ List.ofFn m.pois)
    (hle : ∀ n b lo hi, effBound pois (bounds.getD []) [] n = some b →
      b.min = some lo → b.max = some hi → lo ≤ hi)
    (init : List ℝ) (hi : init.length = n) (runH runF : OptRun ℝ) (out : TmuOut ℝ)
    (h : tmu (m.fitEnv A d 1 floor) m.parModel pois method bounds ⟨init, List.replicate P 0⟩ hypo
      runH runF = .ok out)
    (hopt : BothOptimal (m.fitEnv A d 1 floor) m.parModel pois bounds ⟨init, List.replicate P 0⟩ hypo
      runH runF) :
    IsLeast (nllsWhere m A d (PoisAllowed m pois (bounds.getD []) hypo)) out.hypoNll ∧
    IsLeast (nllsWhere m A d (PoisAllowed m pois (bounds.getD []) [])) out.freeNll ∧
    out.tmu = max 0 (2 * (out.hypoNll - out.freeNll)) ∧
    ((∀ i v b, lastFor hypo (m.pois i) = some v →
      effBound pois (bounds.getD []) [] (m.pois i) = some b → Allows b v) →
      out.tmu = 2 * (out.hypoNll - out.freeNll)) := by
  have hs : Shaped m.parModel ⟨init, List.replicate P 0⟩ := by
    simp [Shaped, Mdl.parModel, hi]
  obtain ⟨k1, k2, k3⟩ := c20_is_profile_ratio _ m.parModel pois method bounds _ hypo runH runF out hm hn hs
    hhyp hbp hle h hopt
  have e0 : (fun a : Fin P => (List.replicate P (0 : ℝ)).getD a 0) = 0 := by
    funext a
    simp [List.getD_eq_getElem?_getD]
  have key : ∀ fixed v, IsLeast (profNlls (m.fitEnv A d 1 floor) m.parModel pois (bounds.getD []) fixed
      (List.replicate P 0)) v → IsLeast (nllsWhere m A d (PoisAllowed m pois (bounds.getD []) fixed)) v := by
    rintro fixed v ⟨⟨p, hpl, hpn, hbox, hpv⟩, hlow⟩
    have hpl' : p.pois.length = n := by simpa [Mdl.parModel] using hpl
    refine ⟨?_, ?_⟩
    · obtain ⟨_, _, θ, _, hv⟩ := Mdl.profNll_inv hpv
      rw [Mdl.nll_floor_gauss A hG] at hv
      exact ⟨_, θ, (inBox_iff m pois _ _ hn p hpl').1 hbox, hv⟩
    · rintro w ⟨x, θ, hx, hw'⟩
      obtain ⟨θ1, v1, g1, g2, g3, _⟩ := Mdl.gauss_min ha hlin hc hl hS hH hG hw h0 hw'
      refine (hlow ⟨⟨List.ofFn x, List.replicate P 0⟩, by simp [Mdl.parModel], rfl, ?_, ?_⟩).trans g3
      · rw [inBox_iff m pois _ _ hn _ (by simp)]
        simp only [Mdl.getD_ofFn]
        exact hx
      · have := Mdl.profNll_intro (fl := floor) g1 (by rw [Mdl.nll_floor_gauss A hG]; exact g2)
        have e : List.ofFn (0 : Fin P → ℝ) = List.replicate P 0 := List.ofFn_const P (0 : ℝ)
        rwa [e] at this
  refine ⟨key hypo _ k1, key [] _ k2, k3, fun hin => ?_⟩
  rw [k3]
  exact ratio_not_clipped m A d pois _ hypo _ _ hin (key hypo _ k1) (key [] _ k2)

/-- C67 for such Gaussian models, at any NP values: the statistic of the POI values from which an Asimov
dataset was generated is 0 on that dataset (e.g. with NPs first profiled on observed data, as the
calculators do). -/
theorem c67_gaussian_any_nps (m : Mdl n P) (A : Mdl.Arrays) (d : Mdl.DataV P) (x₀ : Fin n → ℝ)
    (θ₀ : Fin P → ℝ) (hd : m.generateAsimov A x₀ θ₀ = .ok d)
    (ha : m.use_asym_impacts = false) (hlin : m.use_linear_nps = true) (hc : m.cutoff = 0)
    (hl : m.use_lognormal_terms = false) (hS : m.HSymm) (hH : m.HPsd) (hG : m.nbinsPoisson = 0)
    (hw : ∀ p, ∃ c, (m.nps p).scaledConstraint = .ok c ∧ c ≠ 0 ∧ |c| ≤ 1)
    (N0 : Nat → ℝ) (h0 : m.refTot A = .ok N0) (hn : (List.ofFn m.pois).Nodup) (floor : Option ℝ)
    (pois : List (PoiRange ℝ)) (hm : pois.map (·.par) = List.ofFn m.pois)
    (method : String) (bounds : Option (List (ParBound ℝ))) (hypo : Dict ℝ)
    (hhyp : ∀ e ∈ hypo, e.1 ∈ List.ofFn m.pois) (hbp : ∀ b ∈ bounds.getD [], b.par ∈ List.ofFn m.pois)
    (hle : ∀ n b lo hi, effBound pois (bounds.getD []) [] n = some b →
      b.min = some lo → b.max = some hi → lo ≤ hi)
    (hx : PoisAllowed m pois (bounds.getD []) hypo x₀)
    (init : List ℝ) (hi : init.length = n) (runH runF : OptRun ℝ) (out : TmuOut ℝ)
    (h : tmu (m.fitEnv A d 1 floor) m.parModel pois method bounds ⟨init, List.replicate P 0⟩ hypo
      runH runF = .ok out)
    (hopt : BothOptimal (m.fitEnv A d 1 floor) m.parModel pois bounds ⟨init, List.replicate P 0⟩ hypo
      runH runF) :
    out.tmu = 0 ∧ m.nll A x₀ θ₀ d = .ok (.fin out.hypoNll) := by
  obtain ⟨k1, k2, k3, _⟩ := c68_gaussian_exact_ratio m A d ha hlin hc hl hS hH hG hw N0 h0 hn floor pois hm
    method bounds hypo hhyp hbp hle init hi runH runF out h hopt
  obtain ⟨v0, hv0, _, hmin⟩ := Mdl.asimov_floor hH hS h0 (fun b hb => by omega) hd (fun b hb => by omega)
    none (by simp)
  have e1 : out.hypoNll ≤ v0 := k1.2 ⟨x₀, θ₀, hx, hv0⟩
  obtain ⟨x1, t1, _, hv1⟩ := k1.1
  obtain ⟨x2, t2, _, hv2⟩ := k2.1
  have e2 := hmin _ _ _ hv1
  have e3 := hmin _ _ _ hv2
  have e4 : out.hypoNll = v0 := le_antisymm e1 e2
  refine ⟨?_, by rw [e4]; exact hv0⟩
  rw [k3]
  exact max_eq_left (by linarith)

/-! ### Non-vacuity -/

/-- The fits of a model with one POI `mu` in [0, 10] at the hypothesis `mu = 1`. -/
theorem tmu_one (env : FitEnv ℝ) (nps : List (NP ℝ)) (runH runF : OptRun ℝ) (θ qh qf : List ℝ) (vh vf : ℝ)
    (y : ℝ) (hrun : runF = ⟨[[y]], [y], vf, true⟩)
    (h1 : profileAt env ⟨[1], θ⟩ = .ok (vh, ⟨[1], qh⟩)) (h2 : profileAt env ⟨[y], θ⟩ = .ok (vf, ⟨[y], qf⟩)) :
    tmu env ⟨["mu"], nps⟩ [⟨"mu", some 0, some 10⟩] "scalar" none ⟨[1], θ⟩ [("mu", 1)] runH runF =
      .ok ⟨tmuValue vh vf, vh, vf, ⟨[1], qh⟩, ⟨[y], qf⟩⟩ := by
  subst hrun
  simp [tmu, setPois, setHypo, buildBounds, argBounds, Dict.setAll, Dict.set, clampInit, Dict.values,
    Pars.get, Pars.set, ParBound.testValue, minimize, freeBounds, ParBound.isFree,
    evalAt, updateHypo, h1, h2]


open Demo in
theorem np1_nll_off {A : Mdl.Arrays} (hA : A.sym 0 0 0 = 1 / 2) (d : Mdl.DataV 1) (fl : Option ℝ) :
    ∃ c N0, (np1 true false).refTot A = .ok N0 ∧ ∀ x θ : Fin 1 → ℝ, (np1 true false).nll A x θ d true fl =
      .ok (.fin (1 / 2 * (x 0 * (1 + θ 0 / 2) - d.counts 0) ^ 2 +
        1 / 2 * (θ 0 - d.aux_obs 0) ^ 2 - c)) := by
  have hP : (np1 true false).nbinsPoisson = 0 := (np1_shapes true false).2.2.1
  have htot : ∀ x θ : Fin 1 → ℝ, ∃ N, (np1 true false).totBinExp A x θ = .ok N := by
    intro x θ
    obtain ⟨ne, h1, h2⟩ := np1_ne true false hA x θ
    exact ⟨fun b => ∑ s ∈ Finset.range (np1 true false).maxSamples, ne s b, by
      simp only [Mdl.totBinExp, h1, bind_ok]; rfl⟩
  obtain ⟨N0, hN0⟩ := htot (np1 true false).poiInit 0
  refine ⟨(np1 true false).offsetVal N0 d, N0, hN0, fun x θ => ?_⟩
  obtain ⟨N, hN⟩ := htot x θ
  have h1 := np1_nll false hA x θ d
  rw [Mdl.nll_ok hN (fun b hb => by omega)] at h1
  have h2 := Flt.fin.inj (Except.ok.inj h1)
  rw [Mdl.nll_floor_gauss A hP, Mdl.nll_off_ok hN (fun b hb => by omega) hN0 (fun b hb => by omega),
    Mdl.nllValOff_eq (fun b hb => by omega) (fun b hb => by omega) _ (np1_symm true false), h2]

open Demo in
/-- The profiled NLL of the Gaussian model, with 6 events observed. -/
theorem np1_profileAt {A : Mdl.Arrays} (hA : A.sym 0 0 0 = 1 / 2) (c : ℝ) (fl : Option ℝ)
    (hc : ∀ x θ : Fin 1 → ℝ, (np1 true false).nll A x θ ⟨fun _ => 6, 0⟩ true fl =
      .ok (.fin (1 / 2 * (x 0 * (1 + θ 0 / 2) - 6) ^ 2 + 1 / 2 * (θ 0 - 0) ^ 2 - c))) (x : ℝ) :
    ∃ t, t = -(x / 2 * (x - 6)) / ((x / 2) ^ 2 + 1) ∧
    profileAt ((np1 true false).fitEnv A ⟨fun _ => 6, 0⟩ 1 fl) ⟨[x], [0]⟩ =
      .ok (1 / 2 * (x * (1 + t / 2) - 6) ^ 2 + 1 / 2 * t ^ 2 - c, ⟨[x], [t]⟩) := by
  refine ⟨_, rfl, ?_⟩
  obtain ⟨s, h1, h2, h3⟩ := np1_pq false hA ![x] 0 ⟨fun _ => 6, 0⟩
  have hp : s.p 0 0 = (x / 2) ^ 2 + 1 := by rw [h2]; simp
  have hq : s.q 0 = x / 2 * (x - 6) := by rw [h3]; simp
  have hpr := profile1 h1 (by rw [hp, abs_of_nonneg (by positivity)]; nlinarith [sq_nonneg (x / 2)])
  rw [hp, hq] at hpr
  have ex : (fun i : Fin 1 => [x].getD i 0) = ![x] := by funext i; simp
  have e0 : (fun i : Fin 1 => [(0 : ℝ)].getD i 0) = 0 := by funext i; simp
  have hprof : ((np1 true false).fitEnv A ⟨fun _ => 6, 0⟩ 1 fl).profile ⟨[x], [0]⟩ =
      .ok ⟨[x], [-(x / 2 * (x - 6)) / ((x / 2) ^ 2 + 1)]⟩ := by
    simp only [Mdl.fitEnv, List.length_singleton, and_self, if_true, ex, e0, Mdl.profileNps, hpr, bind_ok,
      pure_ok, List.ofFn_succ, List.ofFn_zero]
    simp [neg_div]
  have hnll : ((np1 true false).fitEnv A ⟨fun _ => 6, 0⟩ 1 fl).nll ⟨[x], [-(x / 2 * (x - 6)) / ((x / 2) ^ 2 + 1)]⟩ =
      .ok (1 / 2 * (x * (1 + -(x / 2 * (x - 6)) / ((x / 2) ^ 2 + 1) / 2) - 6) ^ 2 +
        1 / 2 * (-(x / 2 * (x - 6)) / ((x / 2) ^ 2 + 1)) ^ 2 - c) := by
    refine Mdl.fitEnv_nll_iff.2 ⟨by simp, ?_⟩
    rw [hc]
    simp
  simp only [profileAt, hprof, hnll, bind_ok, pure_ok]

open Demo in
/-- Non-vacuity of C68, `c20_is_profile_ratio`: a Gaussian model with one NP, 6 events observed and 1 expected
at the hypothesis `mu = 1`; the statistic is 20 (it would be 25 without the NP). -/
example : ∃ (m : Mdl 1 1) (A : Mdl.Arrays) (d : Mdl.DataV 1) (N0 : Nat → ℝ) (runH runF : OptRun ℝ)
    (out : TmuOut ℝ), m.setInternal = .ok A ∧ m.use_asym_impacts = false ∧ m.use_linear_nps = true ∧
    m.cutoff = 0 ∧ m.use_lognormal_terms = false ∧ m.HSymm ∧ m.HPsd ∧ m.nbinsPoisson = 0 ∧
    (∀ p, ∃ c, (m.nps p).scaledConstraint = .ok c ∧ c ≠ 0 ∧ |c| ≤ 1) ∧ m.refTot A = .ok N0 ∧
    (List.ofFn m.pois).Nodup ∧
    tmu (m.fitEnv A d 1 (some (1 / 10 ^ 7))) m.parModel [⟨"mu", some 0, some 10⟩] "scalar" none
      ⟨[1], List.replicate 1 0⟩ [("mu", 1)] runH runF = .ok out ∧
    BothOptimal (m.fitEnv A d 1 (some (1 / 10 ^ 7))) m.parModel [⟨"mu", some 0, some 10⟩] none
      ⟨[1], List.replicate 1 0⟩ [("mu", 1)] runH runF ∧ out.tmu = 20 := by
  obtain ⟨A, hi, hA⟩ := np1_internal true false
  obtain ⟨c, N0, hN0, hc⟩ := np1_nll_off hA ⟨fun _ => 6, 0⟩ (some (1 / 10 ^ 7))
  have hpa := np1_profileAt hA c (some (1 / 10 ^ 7)) hc
  obtain ⟨t1, ht1, hp1⟩ := hpa 1
  obtain ⟨t6, ht6, hp6⟩ := hpa 6
  have e1 : t1 = 2 := by rw [ht1]; norm_num
  have e6 : t6 = 0 := by rw [ht6]; norm_num
  subst e1 e6
  refine ⟨np1 true false, A, ⟨fun _ => 6, 0⟩, N0, ⟨[], [], 0, false⟩, ⟨[[6]], [6], _, true⟩, _, hi, rfl, rfl, rfl,
    rfl, np1_symm _ _, np1_psd _ _, (np1_shapes true false).2.2.1, ?_, hN0, by simp [np1],
    tmu_one _ (List.ofFn (np1 true false).nps) _ _ [0] [2] [0] _ _ 6 rfl hp1 hp6, ?_, ?_⟩
  · intro p
    have : p = 0 := Subsingleton.elim _ _
    subst this
    exact ⟨1, by simp [np1, NP.scaledConstraint], by norm_num, by norm_num⟩
  · intro pf bf ph bh h1 h2
    have hpm : (np1 true false).parModel = ⟨["mu"], List.ofFn (np1 true false).nps⟩ := by
      simp [Mdl.parModel, np1]
    rw [hpm] at h1 h2
    simp [setPois, setHypo, buildBounds, argBounds, Dict.setAll, Dict.set, clampInit, Dict.values,
      Pars.get, Pars.set, ParBound.testValue] at h1
    obtain ⟨rfl, rfl⟩ := h1
    simp [setPois, setHypo, buildBounds, argBounds, Dict.setAll, Dict.set, clampInit, Dict.values,
      Pars.get, Pars.set, ParBound.testValue] at h2
    obtain ⟨rfl, rfl⟩ := h2
    constructor
    · intro fr hfr hne
      simp [freeBounds, Dict.values, ParBound.isFree] at hfr
      subst hfr
      refine ⟨rfl, ?_, ⟨⟨[6], [0]⟩, ?_⟩, ?_⟩
      · unfold InFreeBox
        simp [Allows]
        norm_num
      · simp only [evalAt, List.map_cons, List.map_nil, List.zip_cons_cons, List.zip_nil_right, updateHypo,
          List.length_singleton, Nat.zero_lt_one, if_true, List.set_cons_zero, bind_ok]
        exact hp6
      · intro y v q hy hev
        unfold InFreeBox at hy
        obtain ⟨y0, rfl⟩ : ∃ y0, y = [y0] := by
          have := hy.length_eq
          match y, this with
          | [a], _ => exact ⟨a, rfl⟩
        simp only [evalAt, List.map_cons, List.map_nil, List.zip_cons_cons, List.zip_nil_right, updateHypo,
          List.length_singleton, Nat.zero_lt_one, if_true, List.set_cons_zero, bind_ok] at hev
        obtain ⟨t, _, hp⟩ := hpa y0
        rw [hp] at hev
        have := (Prod.mk.inj (Except.ok.inj hev)).1
        rw [← this]
        norm_num
        nlinarith [sq_nonneg (y0 * (1 + t / 2) - 6), sq_nonneg t]
    · intro fr hfr hne
      simp [freeBounds, Dict.values, ParBound.isFree] at hfr
      exact absurd hfr hne
  · simp only [tmuValue]
    norm_num

open Demo in
/-- Non-vacuity of C67: a Poisson model with one NP, at `mu = 1`, with the default floor. -/
example : ∃ (m : Mdl 1 1) (A : Mdl.Arrays) (d : Mdl.DataV 1) (R : Nat → ℝ) (runH runF : OptRun ℝ)
    (out : TmuOut ℝ), m.setInternal = .ok A ∧ m.HSymm ∧ m.HPsd ∧ m.nbinsPoisson = 1 ∧ m.refTot A = .ok R ∧
    (∀ b < m.nbinsPoisson, 0 < R b) ∧ (List.ofFn m.pois).Nodup ∧ m.generateAsimov A ![1] 0 = .ok d ∧
    (∀ b < m.nbinsPoisson, 0 < d.counts b ∧ 1 / 10 ^ 7 ≤ d.counts b) ∧
    (∀ i, lastFor [("mu", (1 : ℝ))] (m.pois i) = some (![1] i)) ∧
    tmu (m.fitEnv A d 1 (some (1 / 10 ^ 7))) m.parModel [⟨"mu", some 0, some 10⟩] "scalar" none
      ⟨[1], List.replicate 1 0⟩ [("mu", 1)] runH runF = .ok out ∧ runF.success = true ∧
    profNll (m.fitEnv A d 1 (some (1 / 10 ^ 7))) ⟨[1], [0]⟩ runF.fn := by
  obtain ⟨A, hi, hA⟩ := np1_internal false false
  obtain ⟨ne, hne, hv⟩ := np1_ne false false hA ![1] 0
  have hsh := np1_shapes false false
  have hP : (np1 false false).nbinsPoisson = 1 := hsh.2.2.1
  have ht : (np1 false false).totBinExp A ![1] 0 =
      .ok (fun b => ∑ s ∈ Finset.range (np1 false false).maxSamples, ne s b) := by
    simp only [Mdl.totBinExp, hne, bind_ok]; rfl
  have hN : (fun b => ∑ s ∈ Finset.range (np1 false false).maxSamples, ne s b) 0 = 1 := by
    rw [hsh.2.1]; simp [hv]
  set N := (fun b => ∑ s ∈ Finset.range (np1 false false).maxSamples, ne s b) with hNdef
  have hd : (np1 false false).generateAsimov A ![1] 0 = .ok ⟨N, 0⟩ := by
    simp only [Mdl.generateAsimov, ht, bind_ok, pure_ok]
  have hpos : ∀ b < (np1 false false).nbinsPoisson, 0 < N b := by
    intro b hb
    rw [hP] at hb
    interval_cases b
    rw [hN]; norm_num
  have hfl : ∀ b < (np1 false false).nbinsPoisson, (1 : ℝ) / 10 ^ 7 ≤ N b := by
    intro b hb
    rw [hP] at hb
    interval_cases b
    rw [hN]; norm_num
  have hR : (np1 false false).refTot A = .ok N := ht
  obtain ⟨s, hs⟩ := Mdl.pq_ok ⟨N, 0⟩ hne (Or.inr rfl) (fun i hi' => (hpos i hi').ne')
  have hdet := c18_well_conditioned (np1 false false) A ![1] 0 ⟨N, 0⟩ rfl (np1_symm _ _) (np1_psd _ _)
    (fun b hb => (hpos b hb).le) (by
      intro p
      have : p = 0 := Subsingleton.elim _ _
      subst this
      exact ⟨1, by simp [np1, NP.scaledConstraint], by norm_num, by norm_num⟩) s hs
  obtain ⟨θ, hθ⟩ : ∃ θ, (np1 false false).profile A ![1] 0 ⟨N, 0⟩ = .ok θ := by
    refine ⟨_, profile1 hs ?_⟩
    have : s.p.det = s.p 0 0 := by simp
    rw [this] at hdet
    simpa using hdet
  have := Mdl.profile_asimov hd hθ
  subst this
  obtain ⟨v0, _, hv0, _⟩ := Mdl.asimov_floor (np1_psd false false) (np1_symm false false) hR hpos hd hpos
    (some (1 / 10 ^ 7)) (by intro f hf; rw [← Option.some.inj hf]; exact hfl)
  have ex : (fun i : Fin 1 => [(1 : ℝ)].getD i 0) = ![1] := by funext i; simp
  have e0 : (fun i : Fin 1 => [(0 : ℝ)].getD i 0) = 0 := by funext i; simp
  have hprof : ((np1 false false).fitEnv A ⟨N, 0⟩ 1 (some (1 / 10 ^ 7))).profile ⟨[1], [0]⟩ = .ok ⟨[1], [0]⟩ := by
    simp only [Mdl.fitEnv, List.length_singleton, and_self, if_true, ex, e0, Mdl.profileNps, hθ, bind_ok,
      pure_ok, List.ofFn_succ, List.ofFn_zero]
    simp
  have hnll : ((np1 false false).fitEnv A ⟨N, 0⟩ 1 (some (1 / 10 ^ 7))).nll ⟨[1], [0]⟩ = .ok v0 := by
    refine Mdl.fitEnv_nll_iff.2 ⟨by simp, ?_⟩
    simp only [ex, e0]
    exact hv0
  have hpa : profileAt ((np1 false false).fitEnv A ⟨N, 0⟩ 1 (some (1 / 10 ^ 7))) ⟨[1], [0]⟩ =
      .ok (v0, ⟨[1], [0]⟩) := by
    simp only [profileAt, hprof, hnll, bind_ok, pure_ok]
  exact ⟨np1 false false, A, ⟨N, 0⟩, N, ⟨[], [], 0, false⟩, ⟨[[1]], [1], v0, true⟩, _, hi, np1_symm _ _, np1_psd _ _,
    hP, hR, hpos, by simp [np1], hd, fun b hb => ⟨hpos b hb, hfl b hb⟩, by
      intro i
      have : i = 0 := Subsingleton.elim _ _
      subst this
      simp [lastFor, np1],
    tmu_one _ (List.ofFn (np1 false false).nps) _ _ [0] [0] [0] _ _ 1 rfl hpa hpa, rfl, _, hprof, hnll⟩

end Verif.Props
