import Verif.Model.Rerun
import Verif.Props.FitData
import Verif.Props.CalcTmu
import Verif.Props.Compose
/-!
# Computed rasters can be saved and loaded: what the loops of the calculators keep
-/
namespace Verif.Props
open Verif Classical

/-- The profiled points have the parameters of the model. -/
def EnvShaped (m : ParModel ℝ) (env : FitEnv ℝ) : Prop := ∀ p q, env.profile p = .ok q → Shaped m q

namespace Saved

def StShaped (m : ParModel ℝ) (o : Option (Pars ℝ)) : Prop := ∀ q, o = some q → Shaped m q

theorem minimize_shaped {env : FitEnv ℝ} {m : ParModel ℝ} {st st' : MinSt ℝ} {run : OptRun ℝ} {r : MinRet ℝ}
    (he : EnvShaped m env) (hs : StShaped m st.minPars) (h : minimize env m st run = .ok (st', r)) :
    StShaped m st'.minPars := by
  obtain ⟨fr, _, h | h⟩ := minimize_inv env m st st' run r h
  · obtain ⟨_, _, v, q, hp, _, h2, _⟩ := h
    intro q' hq'
    rw [h2] at hq'
    cases hq'
    exact he _ _ (profileAt_inv env _ _ _ hp).1
  · obtain ⟨_, es, h1, h2, _⟩ := h
    intro q hq
    rw [h2] at hq
    cases hl : es.getLast? with
    | none => rw [hl] at hq; exact hs q hq
    | some e =>
      rw [hl] at hq
      have hm : e ∈ es := List.mem_of_getLast? hl
      obtain ⟨x, _, hx⟩ := mapM_mem_of h1 _ hm
      obtain ⟨v, q'⟩ := e
      obtain ⟨p, _, hp, _⟩ := evalAt_inv env _ _ _ _ _ hx
      have hq2 : some q' = some q := hq
      cases hq2
      exact he _ _ hp

theorem minimizeD_shaped {opt : Optim ℝ} {env : FitEnv ℝ} {m : ParModel ℝ} {st st' : MinSt ℝ} {r : MinRet ℝ}
    (he : EnvShaped m env) (hs : StShaped m st.minPars) (h : minimizeD opt env m st = .ok (st', r)) :
    StShaped m st'.minPars := by
  unfold minimizeD at h
  obtain ⟨run, _, h1⟩ := bind_eq_ok.1 h
  exact minimize_shaped he hs h1

theorem attempt_shaped {opt : Optim ℝ} {env : FitEnv ℝ} {m : ParModel ℝ} {pois : List (PoiRange ℝ)}
    {init : Pars ℝ} {hypo : Dict ℝ} {s s' : OptiMin ℝ} {o : TmuOut ℝ} (he : EnvShaped m env)
    (hs : StShaped m s.minPars) (h : s.attempt opt m pois env init hypo = .ok (s', o)) :
    StShaped m s'.minPars ∧ Shaped m o.hypoPars ∧ Shaped m o.freePars := by
  obtain ⟨pf, bf, ph, bh, sh, rh, sf, rf, _, _, h3, h4, _, _, h5, h6, _, h7⟩ := attempt_inv _ _ _ _ _ _ _ _ _ h
  have hh := minimizeD_shaped he (by intro q hq; cases hq) h3 _ h5
  have hf := minimizeD_shaped he hs h4 _ h6
  refine ⟨?_, hh, hf⟩
  rw [h7]
  intro q hq
  cases hq
  exact hf

theorem tmu_shaped {opt : Optim ℝ} {env : FitEnv ℝ} {m : ParModel ℝ} {pois : List (PoiRange ℝ)}
    {init : Pars ℝ} {hypo : Dict ℝ} {s s' : OptiMin ℝ} {o : TmuOut ℝ} (he : EnvShaped m env)
    (hs : StShaped m s.minPars) (h : s.tmu opt m pois env init hypo = .ok (s', o)) :
    StShaped m s'.minPars ∧ Shaped m o.hypoPars ∧ Shaped m o.freePars := by
  unfold OptiMin.tmu at h
  obtain ⟨⟨s1, o1⟩, h1, h2⟩ := bind_eq_ok.1 h
  have a1 := attempt_shaped he hs h1
  simp only at h2
  by_cases hc : o1.tmu = 0 ∧ s1.tmuDebug < 0
  · rw [if_pos hc] at h2
    by_cases hr : s1.method = "scalar" ∧ s1.rebound > 0
    · rw [if_pos hr] at h2; cases h2
    · rw [if_neg hr] at h2
      simp only [pure_ok, bind_ok] at h2
      cases ha : s1.altMethod with
      | none =>
        rw [ha] at h2
        have := Except.ok.inj (ε := PyErr) h2
        cases this
        exact a1
      | some alt =>
        rw [ha] at h2
        simp only at h2
        obtain ⟨⟨s2, o2⟩, h3, h4⟩ := bind_eq_ok.1 h2
        have a2 := attempt_shaped (s := { s1 with method := alt, altMethod := none }) he a1.1 h3
        simp only at h4
        by_cases hr2 : o2.tmu = 0 ∧ s2.tmuDebug < 0 ∧ s2.method = "scalar" ∧ s2.rebound > 0
        · rw [if_pos hr2] at h4; cases h4
        · rw [if_neg hr2] at h4
          have := Except.ok.inj (ε := PyErr) h4
          cases this
          exact a2
  · rw [if_neg hc] at h2
    have := Except.ok.inj (ε := PyErr) h2
    cases this
    exact a1

/-- Data whose fits, if any, were made from points of the model. -/
structure Fits (m : ParModel ℝ) (d : PLRData) : Prop where
  free : ∀ f, d.freeFit = some f → ∃ p nll, Shaped m p ∧ FitResult.init m (some p) (some nll) none = .ok f
  hyp : ∀ f, d.hypoFit = some f → ∃ p nll, Shaped m p ∧ FitResult.init m (some p) (some nll) none = .ok f
  keys : (Dict.keys d.hypo).Nodup ∧ ∀ n ∈ Dict.keys d.hypo, n ∈ m.pois
  full : ∀ p, d.fullHypo = some p → Shaped m p

theorem Fits.congr {m : ParModel ℝ} {d d' : PLRData} (h : Fits m d) (h1 : d'.hypo = d.hypo)
    (h2 : d'.freeFit = d.freeFit) (h3 : d'.hypoFit = d.hypoFit) (h4 : d'.fullHypo = d.fullHypo) : Fits m d' :=
  ⟨by rw [h2]; exact h.free, by rw [h3]; exact h.hyp, by rw [h1]; exact h.keys, by rw [h4]; exact h.full⟩

theorem Fits.good {m : ParModel ℝ} {d : PLRData} (h : Fits m d) {a b : ℝ} (hn : FitNlls d a b) :
    GoodData m d := by
  obtain ⟨hf, ff, h1, h2, _, _⟩ := hn
  obtain ⟨p, n, s1, i1⟩ := h.free ff h2
  obtain ⟨p', n', s2, i2⟩ := h.hyp hf h1
  exact ⟨⟨p, n, ff, s1, i1, h2⟩, ⟨p', n', none, hf, s2, Or.inl rfl, i2, h1⟩, h.keys, h.full⟩

theorem eq_of_keys {a b : Hypo} (hk : Dict.keys a = Dict.keys b) (hn : (Dict.keys a).Nodup)
    (h : SameHypo a b) : a = b := by
  have hn' : (Dict.keys b).Nodup := hk ▸ hn
  have e1 : a = (Dict.keys a).map (fun k => (k, (Dict.get? a k).getD 0)) := by
    rw [Dict.keys, List.map_map]
    conv_lhs => rw [← List.map_id a]
    apply List.map_congr_left
    rintro ⟨k, v⟩ hkv
    have := (Dict.get?_eq_some_iff a hn k v).2 hkv
    simp [this]
  have e2 : b = (Dict.keys b).map (fun k => (k, (Dict.get? b k).getD 0)) := by
    rw [Dict.keys, List.map_map]
    conv_lhs => rw [← List.map_id b]
    apply List.map_congr_left
    rintro ⟨k, v⟩ hkv
    have := (Dict.get?_eq_some_iff b hn' k v).2 hkv
    simp [this]
  rw [e1, e2, ← hk]
  apply List.map_congr_left
  intro k _
  rw [h k]

theorem matches_iff {h : List String → ℕ} {K : List String} (hK : K.Nodup) {a b : Hypo}
    (ha : Dict.keys a = K) (hb : Dict.keys b = K) : a.matches h b ↔ a = b := by
  have wa : (Dict.keys a).Nodup := by rw [ha]; exact hK
  have wb : (Dict.keys b).Nodup := by rw [hb]; exact hK
  constructor
  · rintro ⟨_, hm⟩
    exact eq_of_keys (ha.trans hb.symm) (ha ▸ hK) ((Hypo.eqv_iff wa wb).1 hm)
  · rintro rfl
    exact ⟨rfl, (Hypo.eqv_iff wa wa).2 fun _ => rfl⟩

/-- A dict of data under hypotheses which list the POIs `K` in this order. -/
structure HInv {V : Type} (m : ParModel ℝ) (K : List String) (dat : V → PLRData) (r : HDict V) : Prop where
  keys : ∀ x ∈ r, Dict.keys x.1 = K
  nodup : (r.map Prod.fst).Nodup
  own : ∀ x ∈ r, x.1 = (dat x.2).hypo
  fits : ∀ x ∈ r, Fits m (dat x.2)

theorem HInv.nil {V : Type} (m : ParModel ℝ) (K : List String) (dat : V → PLRData) : HInv m K dat [] :=
  ⟨by simp, by simp, by simp, by simp⟩

theorem HInv.set {V : Type} {h : List String → ℕ} {m : ParModel ℝ} {K : List String} (hK : K.Nodup)
    {dat : V → PLRData} {r : HDict V} (hr : HInv m K dat r) {hy : Hypo} {v : V} (hk : Dict.keys hy = K)
    (hv : (dat v).hypo = hy) (hf : Fits m (dat v)) :
    HInv m K dat (r.set h hy v) ∧ ∀ a, a ∈ (r.set h hy v).map Prod.fst ↔ a ∈ r.map Prod.fst ∨ a = hy := by
  induction r with
  | nil =>
    refine ⟨⟨?_, ?_, ?_, ?_⟩, ?_⟩ <;> simp [HDict.set, hk, hv, hf]
  | cons x r ih =>
    obtain ⟨k', v'⟩ := x
    have hr' : HInv m K dat r := ⟨fun y hy => hr.keys y (by simp [hy]),
      (List.nodup_cons.1 (by simpa using hr.nodup)).2, fun y hy => hr.own y (by simp [hy]),
      fun y hy => hr.fits y (by simp [hy])⟩
    have hk' : Dict.keys k' = K := hr.keys (k', v') (by simp)
    unfold HDict.set
    by_cases hm : k'.matches h hy
    · rw [if_pos hm]
      have he := (matches_iff hK hk' hk).1 hm
      subst he
      refine ⟨⟨?_, by simpa using hr.nodup, ?_, ?_⟩, ?_⟩
      · intro y hy
        rcases List.mem_cons.1 hy with rfl | hy
        · exact hk'
        · exact hr'.keys y hy
      · intro y hy
        rcases List.mem_cons.1 hy with rfl | hy
        · exact hv.symm
        · exact hr'.own y hy
      · intro y hy
        rcases List.mem_cons.1 hy with rfl | hy
        · exact hf
        · exact hr'.fits y hy
      · intro a
        simp only [List.map_cons, List.mem_cons]
        tauto
    · rw [if_neg hm]
      have hne : k' ≠ hy := fun he => hm ((matches_iff hK hk' hk).2 he)
      obtain ⟨i1, i2⟩ := ih hr'
      refine ⟨⟨?_, ?_, ?_, ?_⟩, ?_⟩
      · intro y hy
        rcases List.mem_cons.1 hy with rfl | hy
        · exact hk'
        · exact i1.keys y hy
      · rw [List.map_cons, List.nodup_cons]
        refine ⟨?_, i1.nodup⟩
        rw [i2]
        rintro (hc | hc)
        · have hn := hr.nodup
          rw [List.map_cons, List.nodup_cons] at hn
          exact hn.1 hc
        · exact hne hc
      · intro y hy
        rcases List.mem_cons.1 hy with rfl | hy
        · exact hr.own (k', v') (by simp)
        · exact i1.own y hy
      · intro y hy
        rcases List.mem_cons.1 hy with rfl | hy
        · exact hr.fits (k', v') (by simp)
        · exact i1.fits y hy
      · intro a
        simp only [List.map_cons, List.mem_cons, i2]
        tauto

/-- What makes the start points of the fits have the right form. -/
def FullShaped (m : ParModel ℝ) (full : HDict (Pars ℝ)) : Prop := ∀ x ∈ full, Shaped m x.2

theorem FullShaped.get {h : List String → ℕ} {m : ParModel ℝ} {full : HDict (Pars ℝ)} (hf : FullShaped m full)
    (hy : Hypo) : ∀ p, full.get? h hy = some p → Shaped m p := by
  induction full with
  | nil => intro p hp; cases hp
  | cons x r ih =>
    intro p hp
    unfold HDict.get? at hp
    by_cases hm : x.1.matches h hy
    · rw [if_pos hm] at hp; cases hp; exact hf x (by simp)
    · rw [if_neg hm] at hp
      exact ih (fun y hy => hf y (by simp [hy])) p hp

theorem FullShaped.set {h : List String → ℕ} {m : ParModel ℝ} {full : HDict (Pars ℝ)} (hf : FullShaped m full)
    (hy : Hypo) (p : Pars ℝ) (hp : Shaped m p) : FullShaped m (full.set h hy p) := by
  induction full with
  | nil => intro x hx; simp only [HDict.set, List.mem_singleton] at hx; subst hx; exact hp
  | cons x r ih =>
    unfold HDict.set
    have ih' := ih (fun y hy => hf y (by simp [hy]))
    by_cases hm : x.1.matches h hy
    · rw [if_pos hm]
      intro y hy
      rcases List.mem_cons.1 hy with rfl | hy
      · exact hp
      · exact hf y (by simp [hy])
    · rw [if_neg hm]
      intro y hy
      rcases List.mem_cons.1 hy with rfl | hy
      · exact hf _ (by simp)
      · exact ih' y hy

theorem expectedHypos_shaped {h : List String → ℕ} {m : ParModel ℝ} (hypos : List Hypo)
    (d full : HDict (Pars ℝ)) (hd : FullShaped m d) (e : expectedHypos h m hypos d = .ok full) :
    FullShaped m full := by
  induction hypos generalizing d with
  | nil => rw [← Except.ok.inj (ε := PyErr) e]; exact hd
  | cons hy hs ih =>
    unfold expectedHypos at e
    obtain ⟨p, h1, h2⟩ := bind_eq_ok.1 e
    exact ih _ (hd.set hy p (c04_init_shaped m _ _ p h1)) h2

theorem fastQ_fits {c : CalcSetup} {k : CalcKind} {data : DataEnv} {hypo : Hypo} {full : Option (Pars ℝ)}
    {s s' : OptiMin ℝ} {d : PLRData} (he : EnvShaped c.m data.fit)
    (hea : ∀ a, data.asimov = .ok a → EnvShaped c.m a) (hs : StShaped c.m s.minPars)
    (hfull : ∀ p, full = some p → Shaped c.m p) (hw : (Dict.keys hypo).Nodup)
    (h : fastQ c k data hypo full s = .ok (s', d)) :
    StShaped c.m s'.minPars ∧ d.hypo = hypo ∧ Fits c.m d := by
  obtain ⟨t1, d1, ae, a, d2, h1, h2, h3, h4, h5⟩ := (fastQ_inv c k data hypo full s s' d).1 h
  obtain ⟨o, ho, hp⟩ := fastPlr_tmu c data.fit hypo full s t1 d1 h1
  obtain ⟨o', ho', _⟩ := fastPlr_tmu c ae hypo full t1 s' a h3
  obtain ⟨a1, a2, a3⟩ := tmu_shaped he hs ho
  obtain ⟨b1, _, _⟩ := tmu_shaped (hea ae h2) a1 ho'
  obtain ⟨ff, hf, i1, i2, rfl, hk⟩ := plrOf_spec c hypo full o d1 hp
  unfold PLRData.setAsimov at h4
  obtain ⟨A, _, h6⟩ := bind_eq_ok.1 h4
  have e2 := Except.ok.inj (ε := PyErr) h6
  obtain ⟨f1, f2, f3, f4, _⟩ := fillPv_fixed h5
  refine ⟨b1, by rw [f1, ← e2], ?_⟩
  have hb : Fits c.m ⟨hypo, some ff, some hf, [("tmu", o.tmu)], [], full⟩ :=
    ⟨fun f hf => by cases hf; exact ⟨_, _, a3, i1⟩, fun f hf => by cases hf; exact ⟨_, _, a2, i2⟩,
      ⟨hw, hk⟩, hfull⟩
  exact hb.congr (by rw [f1, ← e2]) (by rw [f2, ← e2]) (by rw [f3, ← e2]) (by rw [f4, ← e2])

theorem fastLoop_inv {h : List String → ℕ} {c : CalcSetup} {k : CalcKind} {data : DataEnv}
    {full : HDict (Pars ℝ)} {K : List String} (hK : K.Nodup) (he : EnvShaped c.m data.fit)
    (hea : ∀ a, data.asimov = .ok a → EnvShaped c.m a) (hfull : FullShaped c.m full)
    (hypos : List Hypo) (s s' : OptiMin ℝ) (r r' : Raster) (hk : ∀ a ∈ hypos, Dict.keys a = K)
    (hs : StShaped c.m s.minPars) (hr : HInv c.m K REntry.data r)
    (e : fastLoop h c k data full hypos s r = .ok (s', r')) :
    HInv c.m K REntry.data r' ∧ ∀ a, a ∈ r'.map Prod.fst ↔ a ∈ r.map Prod.fst ∨ a ∈ hypos := by
  induction hypos generalizing s r with
  | nil =>
    unfold fastLoop at e
    have := Except.ok.inj (ε := PyErr) e
    cases this
    exact ⟨hr, by simp⟩
  | cons hy hs' ih =>
    unfold fastLoop at e
    obtain ⟨⟨s1, d⟩, h1, h2⟩ := bind_eq_ok.1 e
    have hky := hk hy (by simp)
    obtain ⟨q1, q2, q3⟩ := fastQ_fits he hea hs (hfull.get hy) (hky ▸ hK) h1
    obtain ⟨i1, i2⟩ := HInv.set (h := h) hK hr (v := ⟨d, none⟩) hky q2 q3
    obtain ⟨j1, j2⟩ := ih s1 _ (fun a ha => hk a (by simp [ha])) q1 i1 h2
    refine ⟨j1, fun a => ?_⟩
    rw [j2, i2, List.mem_cons]
    tauto

/-- A raster which can be saved. -/
structure Savable (m : ParModel ℝ) (K : List String) (hypos : List Hypo) (r : Raster) : Prop where
  entries : ∀ x ∈ r, GoodData m x.2.data ∧ x.1 = x.2.data.hypo ∧
      ∃ a b, FitNlls x.2.data a b ∧ tmuIs x.2.data (2 * (a - b))
  keys : ∀ x ∈ r, Dict.keys x.1 = K
  nodup : (r.map Prod.fst).Nodup
  mem : ∀ a, a ∈ r.map Prod.fst ↔ a ∈ hypos

theorem Savable.distinct {m : ParModel ℝ} {K : List String} (hK : K.Nodup) {hypos : List Hypo} {r : Raster}
    (h : Savable m K hypos r) : r.Pairwise (fun x y => ¬ SameHypo x.1 y.1) := by
  have hn := h.nodup
  rw [List.Nodup, List.pairwise_map] at hn
  refine hn.imp_of_mem ?_
  intro x y hx hy hne hs
  exact hne (eq_of_keys ((h.keys x hx).trans (h.keys y hy).symm) (h.keys x hx ▸ hK) hs)

/-- The end of both computations. -/
theorem savable_of {h : List String → ℕ} {m : ParModel ℝ} {K : List String} {k : CalcKind} {hypos : List Hypo}
    {r1 r2 r3 : Raster} (hr : HInv m K REntry.data r1) (hm : ∀ a, a ∈ r1.map Prod.fst ↔ a ∈ hypos)
    (h2 : Raster.init h m r1 = .ok r2) (h3 : fillAllPv k r2 = .ok r3) : Savable m K hypos r3 := by
  have g2 := Raster.init_spec h2
  have g3 := fillAllPv_spec h3
  have hk : r3.map Prod.fst = r1.map Prod.fst :=
    (Raster.forall2_keys (g3.imp fun _ _ x => x.1)).trans (Raster.forall2_keys (g2.imp fun _ _ x => x.1))
  have F : List.Forall₂ (fun x e => e.1 = x.1 ∧ ∃ a b, FitNlls x.2.data a b ∧ tmuIs e.2.data (2 * (a - b)) ∧
      e.2.data.hypo = x.2.data.hypo ∧ e.2.data.freeFit = x.2.data.freeFit ∧
      e.2.data.hypoFit = x.2.data.hypoFit ∧ e.2.data.fullHypo = x.2.data.fullHypo) r1 r3 := by
    refine Raster.forall2_comp (fun x y e hx he => ?_) g2 g3
    obtain ⟨x1, a, b, x2, x3⟩ := hx
    obtain ⟨e1, e2⟩ := he
    obtain ⟨f1, f2, f3, f4, f5⟩ := fillPv_fixed e2
    refine ⟨e1.trans x1, a, b, x2, ?_, by rw [f1, x3], by rw [f2, x3], by rw [f3, x3], by rw [f4, x3]⟩
    unfold tmuIs
    rw [f5 "tmu" (by decide) (by decide), x3]
    exact Dict.get?_set_self _ _ _
  have ent : ∀ e ∈ r3, ∃ x ∈ r1, e.1 = x.1 ∧ ∃ a b, FitNlls x.2.data a b ∧ tmuIs e.2.data (2 * (a - b)) ∧
      e.2.data.hypo = x.2.data.hypo ∧ e.2.data.freeFit = x.2.data.freeFit ∧
      e.2.data.hypoFit = x.2.data.hypoFit ∧ e.2.data.fullHypo = x.2.data.fullHypo := by
    intro e he
    obtain ⟨i, hi, rfl⟩ := List.getElem_of_mem he
    have hi' : i < r1.length := by rw [F.length_eq]; exact hi
    exact ⟨_, List.getElem_mem hi', (List.forall₂_iff_get.1 F).2 i hi' hi⟩
  refine ⟨fun e he => ?_, fun e he => ?_, by rw [hk]; exact hr.nodup, fun a => by rw [hk]; exact hm a⟩
  · obtain ⟨x, hx, e1, a, b, hn, ht, c1, c2, c3, c4⟩ := ent e he
    have hf := (hr.fits x hx).congr c1 c2 c3 c4
    have hn' : FitNlls e.2.data a b := by
      obtain ⟨f, g, n1, n2, n3, n4⟩ := hn
      exact ⟨f, g, c3.trans n1, c2.trans n2, n3, n4⟩
    exact ⟨hf.good hn', by rw [e1, c1]; exact hr.own x hx, a, b, hn', ht⟩
  · obtain ⟨x, hx, e1, _⟩ := ent e he
    rw [e1]; exact hr.keys x hx

theorem fastResults_savable {h : List String → ℕ} {c : CalcSetup} {k : CalcKind} {data : DataEnv}
    {full : HDict (Pars ℝ)} {K : List String} (hK : K.Nodup) (he : EnvShaped c.m data.fit)
    (hea : ∀ a, data.asimov = .ok a → EnvShaped c.m a) (hfull : FullShaped c.m full)
    {hypos : List Hypo} {s s' : OptiMin ℝ} {r : Raster} (hk : ∀ a ∈ hypos, Dict.keys a = K)
    (hs : s.minPars = none) (e : fastResults h c k data hypos full s = .ok (s', r)) :
    Savable c.m K hypos r := by
  unfold fastResults at e
  obtain ⟨⟨s1, r1⟩, h1, h2⟩ := bind_eq_ok.1 e
  simp only at h2
  obtain ⟨r2, h3, h4⟩ := bind_eq_ok.1 h2
  obtain ⟨r3, h5, h6⟩ := bind_eq_ok.1 h4
  have e6 := Except.ok.inj (ε := PyErr) h6
  simp only [Prod.mk.injEq] at e6
  obtain ⟨_, rfl⟩ := e6
  obtain ⟨i1, i2⟩ := fastLoop_inv hK he hea hfull hypos s s1 [] r1 hk (by rw [hs]; intro q hq; cases hq)
    (HInv.nil _ _ _) h1
  exact savable_of i1 (fun a => by rw [i2]; simp) h3 h5

/-! ### `TMuCalculator` -/

theorem result_shaped {m : ParModel ℝ} {st : MinSt ℝ} {v : ℝ} {q : Pars ℝ} (hs : StShaped m st.minPars)
    (h : st.result = .ok (v, q)) : Shaped m q := by
  unfold MinSt.result at h
  cases h1 : st.minNll <;> cases h2 : st.minPars <;> rw [h1, h2] at h <;> simp only [reduceCtorEq] at h
  have := Except.ok.inj (ε := PyErr) h
  cases this
  exact hs _ h2

theorem tmuStep_fits {h : List String → ℕ} {c : CalcSetup} {mode : FreeFit} {env : FitEnv ℝ}
    {full : HDict (Pars ℝ)} {hy : Hypo} {s s' : OptiMin ℝ} {r r' : TmuAcc} (he : EnvShaped c.m env)
    (hs : StShaped c.m s.minPars) (hfull : FullShaped c.m full) (hw : (Dict.keys hy).Nodup)
    (e : tmuStep h c mode env full hy s r = .ok (s', r')) :
    StShaped c.m s'.minPars ∧ ∃ x, r' = r.set h hy x ∧ x.1.hypo = hy ∧ Fits c.m x.1 ∧ Shaped c.m x.2 := by
  unfold tmuStep at e
  obtain ⟨d, h1, h2⟩ := bind_eq_ok.1 e
  obtain ⟨⟨pf, bf⟩, h3, h4⟩ := bind_eq_ok.1 h2
  simp only at h4
  obtain ⟨⟨ph, bh⟩, h5, h6⟩ := bind_eq_ok.1 h4
  simp only at h6
  obtain ⟨⟨sh, rh⟩, h7, h8⟩ := bind_eq_ok.1 h6
  simp only at h8
  obtain ⟨⟨vh, qh⟩, h9, h10⟩ := bind_eq_ok.1 h8
  simp only at h10
  obtain ⟨hf, h11, h12⟩ := bind_eq_ok.1 h10
  have sh1 := minimizeD_shaped he (by intro q hq; cases hq) h7
  have qs := result_shaped sh1 h9
  have hk : ∀ n ∈ Dict.keys hy, n ∈ c.m.pois := by
    unfold PLRData.update at h1
    by_contra hc
    rw [if_neg hc] at h1
    cases h1
  have hd : d = ⟨hy, none, none, [], [], full.get? h hy⟩ := by
    unfold PLRData.update at h1
    rw [if_pos hk, if_neg (by simp)] at h1
    exact (Except.ok.inj (ε := PyErr) h1).symm
  cases mode with
  | all =>
    simp only at h12
    obtain ⟨⟨sf, rf⟩, h13, h14⟩ := bind_eq_ok.1 h12
    simp only at h14
    obtain ⟨⟨vf, qf⟩, h15, h16⟩ := bind_eq_ok.1 h14
    simp only at h16
    obtain ⟨ff, h17, h18⟩ := bind_eq_ok.1 h16
    have := Except.ok.inj (ε := PyErr) h18
    simp only [Prod.mk.injEq] at this
    obtain ⟨rfl, rfl⟩ := this
    have sf1 := minimizeD_shaped he hs h13
    have qfs := result_shaped sf1 h15
    refine ⟨by intro q hq; cases hq; exact qfs, _, rfl, by rw [hd], ?_, qs⟩
    rw [hd]
    exact ⟨fun f hf => by cases hf; exact ⟨_, _, qfs, h17⟩, fun f hf => by cases hf; exact ⟨_, _, qs, h11⟩,
      ⟨hw, hk⟩, hfull.get hy⟩
  | single | bestFixed =>
    have := Except.ok.inj (ε := PyErr) h12
    simp only [Prod.mk.injEq] at this
    obtain ⟨rfl, rfl⟩ := this
    refine ⟨hs, _, rfl, by rw [hd], ?_, qs⟩
    rw [hd]
    exact ⟨(fun f hf => by cases hf), (fun f hf => by cases hf; exact ⟨_, _, qs, h11⟩), ⟨hw, hk⟩, hfull.get hy⟩

theorem set_mem {V : Type} {h : List String → ℕ} (r : HDict V) (hy : Hypo) (v : V) :
    ∀ x ∈ r.set h hy v, x.2 = v ∨ x ∈ r := by
  induction r with
  | nil => intro x hx; simp only [HDict.set, List.mem_singleton] at hx; subst hx; exact Or.inl rfl
  | cons y r ih =>
    intro x hx
    unfold HDict.set at hx
    by_cases hm : y.1.matches h hy
    · rw [if_pos hm] at hx
      rcases List.mem_cons.1 hx with rfl | hx
      · exact Or.inl rfl
      · exact Or.inr (by simp [hx])
    · rw [if_neg hm] at hx
      rcases List.mem_cons.1 hx with rfl | hx
      · exact Or.inr (by simp)
      · rcases ih x hx with h1 | h1
        · exact Or.inl h1
        · exact Or.inr (by simp [h1])

theorem tmuLoop_inv {h : List String → ℕ} {c : CalcSetup} {mode : FreeFit} {env : FitEnv ℝ}
    {full : HDict (Pars ℝ)} {K : List String} (hK : K.Nodup) (he : EnvShaped c.m env)
    (hfull : FullShaped c.m full) (hypos : List Hypo) (s s' : OptiMin ℝ) (r r' : TmuAcc)
    (hk : ∀ a ∈ hypos, Dict.keys a = K) (hs : StShaped c.m s.minPars) (hr : HInv c.m K Prod.fst r)
    (hsh : ∀ x ∈ r, Shaped c.m x.2.2)
    (e : tmuLoop h c mode env full hypos s r = .ok (s', r')) :
    StShaped c.m s'.minPars ∧ HInv c.m K Prod.fst r' ∧ (∀ x ∈ r', Shaped c.m x.2.2) ∧
      ∀ a, a ∈ r'.map Prod.fst ↔ a ∈ r.map Prod.fst ∨ a ∈ hypos := by
  induction hypos generalizing s r with
  | nil =>
    unfold tmuLoop at e
    have := Except.ok.inj (ε := PyErr) e
    cases this
    exact ⟨hs, hr, hsh, by simp⟩
  | cons hy hs' ih =>
    unfold tmuLoop at e
    obtain ⟨⟨s1, r1⟩, h1, h2⟩ := bind_eq_ok.1 e
    have hky := hk hy (by simp)
    obtain ⟨q1, x, rfl, q2, q3, q4⟩ := tmuStep_fits he hs hfull (hky ▸ hK) h1
    obtain ⟨i1, i2⟩ := HInv.set (h := h) hK hr (v := x) hky q2 q3
    have hsh' : ∀ y ∈ r.set h hy x, Shaped c.m y.2.2 := by
      intro y hy'
      rcases set_mem r hy x y hy' with h3 | h3
      · rw [h3]; exact q4
      · exact hsh y h3
    obtain ⟨j0, j1, j2, j3⟩ := ih s1 _ (fun a ha => hk a (by simp [ha])) q1 i1 hsh' h2
    refine ⟨j0, j1, j2, fun a => ?_⟩
    rw [j3, i2, List.mem_cons]
    tauto

/-- A fit made from a point of the model. -/
def Fit (m : ParModel ℝ) (f : FitResult) : Prop :=
  ∃ p nll, Shaped m p ∧ FitResult.init m (some p) (some nll) none = .ok f

theorem argMinBy_mem {α : Type} (b : α × ℝ) (l : List (α × ℝ)) : argMinBy b l ∈ b :: l := by
  induction l generalizing b with
  | nil => simp [argMinBy]
  | cons x l ih =>
    unfold argMinBy
    have := ih (if x.2 < b.2 then x else b)
    rw [List.mem_cons] at this ⊢
    rcases this with h | h
    · rw [h]
      by_cases hc : x.2 < b.2
      · right; rw [if_pos hc]; simp
      · left; rw [if_neg hc]
    · right; simp [h]

theorem freeStage_fit {c : CalcSetup} {mode : FreeFit} {env : FitEnv ℝ} {r : TmuAcc} {s s' : OptiMin ℝ}
    {f : Option FitResult} (he : EnvShaped c.m env) (hs : StShaped c.m s.minPars)
    (hsh : ∀ x ∈ r, Shaped c.m x.2.2) (e : freeStage c mode env r s = .ok (s', f)) :
    ∀ g, f = some g → Fit c.m g := by
  unfold freeStage at e
  have key : ∀ {mode : FreeFit} {s' f}, commonFit c mode env r s = .ok (s', f) → Fit c.m f := by
    intro mode s' f e
    unfold commonFit at e
    obtain ⟨xs, h1, h2⟩ := bind_eq_ok.1 e
    cases xs with
    | nil => cases h2
    | cons x l =>
      simp only at h2
      have hb := argMinBy_mem x l
      obtain ⟨y, hy, hyx⟩ := mapM_mem_of h1 _ hb
      have hbm : (argMinBy x l).1 = y := by
        unfold hypoNllOf at hyx
        cases h3 : y.2.1.hypoFit with
        | none => rw [h3] at hyx; cases hyx
        | some g =>
          rw [h3] at hyx
          simp only at hyx
          cases h4 : g.nll with
          | none => rw [h4] at hyx; cases hyx
          | some z => rw [h4] at hyx; rw [← Except.ok.inj (ε := PyErr) hyx]
      cases mode with
      | bestFixed =>
        obtain ⟨g, h3, h4⟩ := bind_eq_ok.1 h2
        have := Except.ok.inj (ε := PyErr) h4
        simp only [Prod.mk.injEq] at this
        obtain ⟨rfl, rfl⟩ := this
        exact ⟨_, _, by rw [hbm]; exact hsh y hy, h3⟩
      | all | single =>
        simp only at h2
        obtain ⟨⟨pf, bf⟩, h3, h4⟩ := bind_eq_ok.1 h2
        simp only at h4
        obtain ⟨⟨sf, rf⟩, h5, h6⟩ := bind_eq_ok.1 h4
        simp only at h6
        obtain ⟨⟨v, q⟩, h7, h8⟩ := bind_eq_ok.1 h6
        simp only at h8
        obtain ⟨g, h9, h10⟩ := bind_eq_ok.1 h8
        have := Except.ok.inj (ε := PyErr) h10
        simp only [Prod.mk.injEq] at this
        obtain ⟨rfl, rfl⟩ := this
        exact ⟨_, _, result_shaped (minimizeD_shaped he hs h5) h7, h9⟩
  cases mode with
  | all =>
    have := Except.ok.inj (ε := PyErr) e
    cases this
    intro g hg; cases hg
  | single | bestFixed =>
    obtain ⟨⟨s1, g⟩, h1, h2⟩ := bind_eq_ok.1 e
    have := Except.ok.inj (ε := PyErr) h2
    cases this
    intro g' hg'
    cases hg'
    exact key h1

theorem update_fits {m : ParModel ℝ} {d d' : PLRData} (h : Fits m d) (e : PLRData.update m d = .ok d') :
    d'.hypo = d.hypo ∧ Fits m d' := by
  unfold PLRData.update at e
  have hk := h.keys.2
  rw [if_pos hk] at e
  by_cases hc : d.freeFit.isSome ∧ d.hypoFit.isSome ∧ "tmu" ∉ Dict.keys d.testStats
  · rw [if_pos hc] at e
    unfold PLRData.computeTmu at e
    cases h1 : d.hypoFit with
    | none => rw [h1] at e; cases e
    | some hf =>
      cases h2 : d.freeFit with
      | none => rw [h1, h2] at e; cases e
      | some ff =>
        rw [h1, h2] at e
        simp only at e
        cases h3 : hf.nll <;> cases h4 : ff.nll <;> rw [h3, h4] at e <;> simp only [reduceCtorEq] at e
        have := Except.ok.inj (ε := PyErr) e
        subst this
        exact ⟨rfl, h.congr rfl (by rw [h2]) (by rw [h1]) rfl⟩
  · rw [if_neg hc] at e
    have := Except.ok.inj (ε := PyErr) e
    subst this
    exact ⟨rfl, h⟩

theorem withFree_fits {m : ParModel ℝ} {f : Option FitResult} {d : PLRData} (hf : ∀ g, f = some g → Fit m g)
    (h : Fits m d) : (withFree f d).hypo = d.hypo ∧ Fits m (withFree f d) := by
  cases f with
  | none => exact ⟨rfl, h⟩
  | some g => exact ⟨rfl, fun g' hg' => by cases hg'; exact hf g rfl, h.hyp, h.keys, h.full⟩

theorem tmuFinish_inv {h : List String → ℕ} {c : CalcSetup} {f : Option FitResult} {K : List String}
    (hK : K.Nodup) (hf : ∀ g, f = some g → Fit c.m g) (hypos : List Hypo) (r r' : TmuAcc)
    (hk : ∀ a ∈ hypos, Dict.keys a = K) (hr : HInv c.m K Prod.fst r)
    (hin : ∀ a ∈ hypos, a ∈ r.map Prod.fst)
    (e : tmuFinish h c f hypos r = .ok r') :
    HInv c.m K Prod.fst r' ∧ ∀ a, a ∈ r'.map Prod.fst ↔ a ∈ r.map Prod.fst := by
  induction hypos generalizing r with
  | nil =>
    unfold tmuFinish at e
    rw [← Except.ok.inj (ε := PyErr) e]
    exact ⟨hr, fun _ => Iff.rfl⟩
  | cons hy hs ih =>
    unfold tmuFinish at e
    obtain ⟨x, h1, h2⟩ := bind_eq_ok.1 e
    obtain ⟨d, h3, h4⟩ := bind_eq_ok.1 h2
    have hky := hk hy (by simp)
    -- the entry under the hypothesis
    have hx : (hy, x) ∈ r := by
      have : ∀ r : TmuAcc, (∀ y ∈ r, Dict.keys y.1 = K) → HDict.getItem h r hy = .ok x → (hy, x) ∈ r := by
        intro r
        induction r with
        | nil => intro _ hg; simp [HDict.getItem, HDict.get?] at hg
        | cons y r ih =>
          intro hkr hg
          unfold HDict.getItem HDict.get? at hg
          by_cases hm : y.1.matches h hy
          · rw [if_pos hm] at hg
            have e1 := (matches_iff hK (hkr y (by simp)) hky).1 hm
            have e2 := Except.ok.inj (ε := PyErr) hg
            rw [← e1, ← e2]; simp
          · rw [if_neg hm] at hg
            exact List.mem_cons_of_mem _ (ih (fun z hz => hkr z (by simp [hz])) hg)
      exact this r hr.keys h1
    obtain ⟨w1, w2⟩ := withFree_fits hf (hr.fits _ hx)
    obtain ⟨u1, u2⟩ := update_fits w2 h3
    have hown := hr.own _ hx
    simp only at hown
    obtain ⟨i1, i2⟩ := HInv.set (h := h) hK hr (v := (d, x.2)) hky (by rw [u1, w1, ← hown]) u2
    obtain ⟨j1, j2⟩ := ih _ (fun a ha => hk a (by simp [ha])) i1
      (fun a ha => by rw [i2]; exact Or.inl (hin a (by simp [ha]))) h4
    refine ⟨j1, fun a => ?_⟩
    rw [j2, i2]
    constructor
    · rintro (h5 | rfl)
      · exact h5
      · exact hin _ (by simp)
    · exact Or.inl

theorem tmuResults_savable {h : List String → ℕ} {c : CalcSetup} {env : FitEnv ℝ}
    {full : HDict (Pars ℝ)} {K : List String} (hK : K.Nodup) (he : EnvShaped c.m env)
    (hfull : FullShaped c.m full) {hypos : List Hypo} {opt : String} {s s' : OptiMin ℝ} {r : Raster}
    (hk : ∀ a ∈ hypos, Dict.keys a = K) (hs : s.minPars = none)
    (e : tmuResults h c env hypos full opt s = .ok (s', r)) : Savable c.m K hypos r := by
  unfold tmuResults at e
  obtain ⟨mode, _, e1⟩ := bind_eq_ok.1 e
  obtain ⟨⟨s1, r1⟩, h1, h2⟩ := bind_eq_ok.1 e1
  simp only at h2
  obtain ⟨⟨s2, f⟩, h3, h4⟩ := bind_eq_ok.1 h2
  simp only at h4
  obtain ⟨r2, h5, h6⟩ := bind_eq_ok.1 h4
  obtain ⟨r3, h7, h8⟩ := bind_eq_ok.1 h6
  obtain ⟨r4, h9, h10⟩ := bind_eq_ok.1 h8
  have e10 := Except.ok.inj (ε := PyErr) h10
  simp only [Prod.mk.injEq] at e10
  obtain ⟨_, rfl⟩ := e10
  obtain ⟨i0, i1, i2, i3⟩ := tmuLoop_inv hK he hfull hypos s s1 [] r1 hk (by rw [hs]; intro q hq; cases hq)
    (HInv.nil _ _ _) (by simp) h1
  have hf := freeStage_fit he i0 i2 h3
  obtain ⟨j1, j2⟩ := tmuFinish_inv hK hf hypos r1 r2 hk i1 (fun a ha => by rw [i3]; exact Or.inr ha) h5
  have hkeys : (r2.map fun e => ((e.1, ⟨e.2.1, none⟩) : Hypo × REntry)).map Prod.fst = r2.map Prod.fst := by
    rw [List.map_map]; rfl
  refine savable_of (h := h) (r1 := r2.map fun e => (e.1, ⟨e.2.1, none⟩)) ⟨?_, ?_, ?_, ?_⟩ (fun a => ?_) h7 h9
  · intro x hx
    obtain ⟨y, hy, rfl⟩ := List.mem_map.1 hx
    exact j1.keys y hy
  · rw [hkeys]; exact j1.nodup
  · intro x hx
    obtain ⟨y, hy, rfl⟩ := List.mem_map.1 hx
    exact j1.own y hy
  · intro x hx
    obtain ⟨y, hy, rfl⟩ := List.mem_map.1 hx
    exact j1.fits y hy
  · rw [hkeys, j2, i3]; simp

end Saved
end Verif.Props
