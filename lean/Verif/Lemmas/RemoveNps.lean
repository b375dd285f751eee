import Verif.Lemmas.Tools
/-! `NPPruner.remove_nps`: what it returns. -/
namespace Verif
namespace Mdl
variable {n P : Nat}

theorem sum_kept {P : Nat} (l : List (Fin P)) (q : Fin P → Bool) (g : Fin P → ℝ) :
    ((l.filter q).map g).sum = (l.map fun p => if q p then g p else 0).sum := by
  induction l with
  | nil => rfl
  | cons a l ih =>
    by_cases h : q a = true
    · rw [List.filter_cons_of_pos h]; simp [ih, h]
    · rw [List.filter_cons_of_neg h]; simp [ih, h]

/-- Splitting a sum over NPs into removed and kept ones. -/
theorem sum_split {P : Nat} (removed : List (Fin P)) (f : Fin P → ℝ → ℝ) (hf : ∀ p, f p 0 = 0)
    (θ : Fin P → ℝ) (u : Fin P → ℝ) (hu : ∀ p, u p = if p ∈ removed then θ p else 0) :
    ∑ p, f p (θ p) = ∑ p, f p (u p) +
      ∑ i : Fin ((List.finRange P).filter (fun p => decide (p ∉ removed))).length,
        f (((List.finRange P).filter (fun p => decide (p ∉ removed))).get i)
          (θ (((List.finRange P).filter (fun p => decide (p ∉ removed))).get i)) := by
  have h1 : ∑ i : Fin ((List.finRange P).filter (fun p => decide (p ∉ removed))).length,
        f (((List.finRange P).filter (fun p => decide (p ∉ removed))).get i)
          (θ (((List.finRange P).filter (fun p => decide (p ∉ removed))).get i)) =
      ∑ p, if p ∉ removed then f p (θ p) else 0 := by
    have := Fin.sum_univ_fun_getElem ((List.finRange P).filter (fun p => decide (p ∉ removed)))
      (fun p => f p (θ p))
    simp only [List.get_eq_getElem]
    rw [this, sum_kept, Fin.sum_univ_def]
    simp
  rw [h1, ← Finset.sum_add_distrib]
  refine Finset.sum_congr rfl fun p _ => ?_
  rw [hu]
  by_cases hp : p ∈ removed <;> simp [hp, hf]

/-- The NPs that a call of `remove_nps` selects: those named by a key, and those matched by a key
that is not the name of an NP. -/
def Selected (m : Mdl n P) (rx : String → String → Bool) (pv : Dict (Option ℝ)) (p : Fin P) : Prop :=
  ∃ spec ∈ pv.keys, (m.nps p).name = spec ∨
    ((∀ q, (m.nps q).name ≠ spec) ∧ rx spec (m.nps p).name = true)

theorem np_inj {m : Mdl n P} (hD : m.ctx.Distinct) : Function.Injective fun p => (m.nps p).name := by
  have := np_names_nodup hD
  rw [List.map_ofFn] at this
  exact List.nodup_ofFn.1 this

theorem selectNps_mem {m : Mdl n P} (hD : m.ctx.Distinct) {rx : String → String → Bool} {spec : String}
    {l : List (Fin P)} (h : m.selectNps rx spec = .ok l) (p : Fin P) :
    p ∈ l ↔ (m.nps p).name = spec ∨ ((∀ q, (m.nps q).name ≠ spec) ∧ rx spec (m.nps p).name = true) := by
  unfold selectNps at h
  cases hf : (List.finRange P).find? (fun p => decide ((m.nps p).name = spec)) with
  | some q =>
    rw [hf] at h
    rw [← Except.ok.inj h]
    have hq : (m.nps q).name = spec := by simpa using List.find?_some hf
    constructor
    · intro hp
      obtain rfl := List.mem_singleton.1 hp
      exact .inl hq
    · rintro (hp | ⟨hp, _⟩)
      · exact List.mem_singleton.2 (np_inj hD (hp.trans hq.symm))
      · exact absurd hq (hp q)
  | none =>
    rw [hf] at h
    have hno : ∀ q, (m.nps q).name ≠ spec := by
      intro q
      have := List.find?_eq_none.1 hf q (List.mem_finRange q)
      simpa using this
    have hl : l = (List.finRange P).filter (fun p => rx spec (m.nps p).name) := by
      simp only at h
      cases hl : (List.finRange P).filter (fun p => rx spec (m.nps p).name) with
      | nil => rw [hl] at h; cases h
      | cons a t => rw [hl] at h; exact (Except.ok.inj h).symm
    rw [hl, List.mem_filter]
    constructor
    · rintro ⟨_, hp⟩
      exact .inr ⟨hno, hp⟩
    · rintro (hp | ⟨_, hp⟩)
      · exact absurd hp (hno p)
      · exact ⟨List.mem_finRange p, hp⟩

theorem selected_iff {m : Mdl n P} (hD : m.ctx.Distinct) {rx : String → String → Bool}
    {pv : Dict (Option ℝ)} {sels} (h : pv.keys.mapM (m.selectNps rx) = .ok sels) (p : Fin P) :
    p ∈ sels.flatten ↔ m.Selected rx pv p := by
  have hF := mapM_ok_iff.1 h
  clear h
  unfold Selected
  generalize pv.keys = ks at hF
  induction hF with
  | nil => simp
  | @cons k l ks sels h1 _ ih =>
    rw [List.flatten_cons, List.mem_append, selectNps_mem hD h1, List.exists_mem_cons_iff]
    exact or_congr Iff.rfl ih

/-- The channels of the pruned model: `ch0` is the channel of the original model, `ch'` that of the
pruned one, at bin offset `off`. -/
structure Refit (names : List String) (ne0 : Nat → Nat → ℝ) (vals0 : Dict ℝ) (off : Nat)
    (ch0 ch' : Channel) : Prop where
  name : ch'.name = ch0.name
  gauss : ch'.gaussian = ch0.gaussian
  nbins : ch'.nbins = ch0.nbins
  hess : ch'.hessian = ch0.hessian
  len : ch'.samples.length = ch0.samples.length
  smp : ∀ (s : Nat) (smp0 smp' : Sample), ch0.samples[s]? = some smp0 → ch'.samples[s]? = some smp' →
    ∃ D, DroppedFrom names smp0 D ∧ smp'.name = D.name ∧ smp'.norm = D.norm ∧ smp'.impacts = D.impacts ∧
      D.norm.value vals0 = .ok smp'.nominal_norm ∧
      smp'.nominal_yields = (List.range ch0.nbins).map fun b => ne0 s (off + b)

theorem refitChannel_inv {P' : Nat} {m2 : Mdl n P'} {vals' vals0 : Dict ℝ} {ne0 : Nat → Nat → ℝ}
    {offs : Dict Nat} {names : List String} {ch0 ch ch' : Channel} (hd : ChanDropped names ch0 ch)
    (hset : ∀ smp ∈ ch.samples, ∀ p, (∃ i, smp.impacts.get? (m2.nps p).name = some i) ∨ ∃ v, smp.norm = .number v)
    (h : refitChannel m2 vals' ne0 vals0 offs ch = .ok ch') :
    ∃ off, offs.get? ch0.name = some off ∧ Refit names ne0 vals0 off ch0 ch' := by
  unfold refitChannel at h
  obtain ⟨off, hoff, h1⟩ := bind_eq_ok.1 h
  obtain ⟨smps, hs, h2⟩ := bind_eq_ok.1 h1
  obtain ⟨d1, d2, d3, d4, d5⟩ := hd
  have hch' := (Except.ok.inj h2).symm
  subst hch'
  have hoff' := Dict.getItem_ok.1 hoff
  rw [d1] at hoff'
  have hF := mapM_ok_iff.1 hs
  have hl : smps.length = ch.samples.length := by rw [← hF.length_eq]; simp
  refine ⟨off, hoff', d1, d2, d3, d4, by simp only; rw [hl, d5.length_eq], ?_⟩
  intro s smp0 smp' h0 hs'
  have hlt : s < ch.samples.length := by
    rw [← d5.length_eq]; exact (List.getElem?_eq_some_iff.1 h0).1
  have hdrop : DroppedFrom names smp0 ch.samples[s] := by
    have := (List.forall₂_iff_get.1 d5).2 s (List.getElem?_eq_some_iff.1 h0).1 hlt
    simp only [List.get_eq_getElem] at this
    rwa [(List.getElem?_eq_some_iff.1 h0).2] at this
  refine ⟨ch.samples[s], hdrop, ?_⟩
  have hz := (List.forall₂_iff_get.1 hF).2 s (by simpa using hlt) (by rw [hl]; exact hlt)
  simp only [List.get_eq_getElem, List.getElem_zipIdx, Nat.zero_add] at hz
  have hsm : smps[s] = smp' := (List.getElem?_eq_some_iff.1 hs').2
  rw [hsm] at hz
  obtain ⟨raw, hraw, hup⟩ := bind_eq_ok.1 hz
  unfold refitSample at hraw
  obtain ⟨nn, hnn, hraw2⟩ := bind_eq_ok.1 hraw
  have hraw3 := (Except.ok.inj hraw2).symm
  subst hraw3
  have := setNpData_same (rs := ⟨ch.samples[s].name, ch.samples[s].norm, some nn,
    some ((List.range ch.nbins).map fun b => ne0 s (off + b)), ch.samples[s].impacts⟩)
    (nps := List.ofFn m2.nps) (reals := m2.ctx.reals) (vals := vals') (fuel := m2.fuel) rfl rfl (by
      intro par hp
      obtain ⟨p, rfl⟩ := List.mem_ofFn.1 hp
      exact hset _ (List.getElem_mem hlt) p)
  unfold setUpSample at hup
  rw [this] at hup
  have hfin := (Except.ok.inj hup).symm
  subst hfin
  exact ⟨rfl, rfl, rfl, hnn, by simp only; rw [d3]⟩

end Mdl
end Verif

namespace Verif
namespace Mdl
variable {n P : Nat}

/-- Everything `remove_nps` returns. -/
structure Removal (m : Mdl n P) (A : Arrays) (rx : String → String → Bool) (pv : Dict (Option ℝ))
    {P' : Nat} (m' : Mdl n P') (keep : Fin P' → Fin P) (names : List String) (ne0 : Nat → Nat → ℝ)
    (vals0 : Dict ℝ) (u : Fin P → ℝ) : Prop where
  mono : StrictMono keep
  nps : ∀ i, m'.nps i = m.nps (keep i)
  range : ∀ p, p ∈ Set.range keep ↔ ¬ m.Selected rx pv p
  mem : ∀ p, (m.nps p).name ∈ names ↔ m.Selected rx pv p
  sub : ∀ k ∈ names, ∃ p, (m.nps p).name = k
  pois : m'.pois = m.pois
  poiInit : m'.poiInit = m.poiInit
  exprs : m'.exprs = m.exprs
  asym : m'.use_asym_impacts = m.use_asym_impacts
  lin : m'.use_linear_nps = m.use_linear_nps
  logn : m'.use_lognormal_terms = m.use_lognormal_terms
  simple : m'.use_simple_sym_impacts = m.use_simple_sym_impacts
  cutoff : m'.cutoff = m.cutoff
  variations : m'.variations = m.variations
  len : m'.channels.length = m.channels.length
  chan : ∀ (i : Nat) (ch ch' : Channel), m.channels[i]? = some ch → m'.channels[i]? = some ch' →
    Refit names ne0 vals0 (m.chOff i) ch ch'
  vals : m.ctx.realVals m.poiInit = .ok vals0
  pulls : ∀ p, (m.Selected rx pv p → u p = removedAt pv (m.nps p)) ∧ (¬ m.Selected rx pv p → u p = 0)
  ref : ∀ (i : Nat) (ch : Channel) (s : Nat) (smp D : Sample), m.channels[i]? = some ch →
    ch.samples[s]? = some smp → DroppedFrom names smp D → ∀ v, D.norm.value vals0 = .ok v → ∀ b < ch.nbins,
    ne0 s (m.chOff i + b) = v / smp.nominal_norm * smp.nominal_yields.getD b 0 *
      m.cutKExp A u s (m.chOff i + b)
  nn0 : ∀ ch ∈ m.channels, ∀ smp ∈ ch.samples, smp.nominal_norm ≠ 0
  split : ∀ (f : Fin P → ℝ → ℝ), (∀ p, f p 0 = 0) → ∀ θ : Fin P → ℝ,
    (∀ p, m.Selected rx pv p → θ p = removedAt pv (m.nps p)) →
    ∑ p, f p (θ p) = ∑ p, f p (u p) + ∑ i, f (keep i) (θ (keep i))

theorem normEq_of_dropped {names : List String} {s D D' : Sample} (h : DroppedFrom names s D)
    (h' : DroppedFrom names s D') : D.norm = D'.norm := by
  by_cases hk : ∀ k ∈ names, s.norm.isExpr k = false
  · rw [h.norm hk, h'.norm hk]
  · push Not at hk
    obtain ⟨k, hk, hke⟩ := hk
    have hke : s.norm.isExpr k = true := by simpa using hke
    rw [h.normGone k hk hke, h'.normGone k hk hke]

theorem removeNps_inv {m : Mdl n P} (hD : m.ctx.Distinct) (hcn : (m.channels.map (·.name)).Nodup)
    (hsh : m.YieldsShaped) (hset : m.NpDataSet) {A : Arrays} {rx : String → String → Bool}
    {pv : Dict (Option ℝ)} {P' : Nat} {m' : Mdl n P'} (h : m.removeNps A rx pv = .ok ⟨P', m'⟩) :
    ∃ keep names ne0 vals0 u, Removal m A rx pv m' keep names ne0 vals0 u := by
  unfold removeNps at h
  obtain ⟨sels, hsel, h1⟩ := bind_eq_ok.1 h
  clear h
  simp only at h1
  set removed := sels.flatten with hrem
  obtain ⟨hp, hch⟩ := m.dropNp_foldl pv removed [] (fun _ => 0, m.channels) (by simp)
    (by
      simp only [List.map_nil]
      exact List.forall₂_same.2 fun ch _ => ⟨rfl, rfl, rfl, rfl, List.forall₂_same.2 fun s _ => droppedFrom_nil s⟩)
  rw [List.nil_append] at hp hch
  set st := removed.foldl (m.dropNp pv) (fun _ => 0, m.channels) with hst
  set names := removed.map fun p => (m.nps p).name with hnames
  obtain ⟨ne0, hne0, h2⟩ := bind_eq_ok.1 h1
  obtain ⟨vals0, hvals0, h3⟩ := bind_eq_ok.1 h2
  clear h1 h2
  by_cases hnd : ¬ removed.Nodup
  · rw [if_pos hnd] at h3; cases h3
  rw [if_neg hnd] at h3
  simp only [pure_ok, bind_ok] at h3
  set kept := (List.finRange P).filter (fun p => decide (p ∉ removed)) with hkept
  obtain ⟨vals', hvals', h4⟩ := bind_eq_ok.1 h3
  obtain ⟨chans, hchans, h5⟩ := bind_eq_ok.1 h4
  clear h3 h4
  have h6 := Except.ok.inj h5
  clear h5
  rw [Sigma.mk.inj_iff] at h6
  obtain ⟨rfl, h7⟩ := h6
  have hm' := (eq_of_heq h7).symm
  clear h7
  have hselp : ∀ p, p ∈ removed ↔ m.Selected rx pv p := fun p => selected_iff hD hsel p
  have hmemn : ∀ p, (m.nps p).name ∈ names ↔ m.Selected rx pv p := by
    intro p
    rw [← hselp p, hnames, List.mem_map]
    constructor
    · rintro ⟨q, hq, he⟩
      rwa [← np_inj hD he]
    · exact fun hp => ⟨p, hp, rfl⟩
  -- the model m1 used for the reference yields
  set m1 : Mdl n P := { m with channels := st.2 } with hm1
  have hlen1 : st.2.length = m.channels.length := hch.length_eq.symm
  have hget : ∀ (i : Nat) (ch ch1 : Channel), m.channels[i]? = some ch → st.2[i]? = some ch1 →
      ChanDropped names ch ch1 := by
    intro i ch ch1 e1 e2
    have := (List.forall₂_iff_get.1 hch).2 i (List.getElem?_eq_some_iff.1 e1).1 (List.getElem?_eq_some_iff.1 e2).1
    simp only [List.get_eq_getElem] at this
    rwa [(List.getElem?_eq_some_iff.1 e1).2, (List.getElem?_eq_some_iff.1 e2).2] at this
  have hlay : SameLayout m m1 := ⟨hlen1, fun i ch ch1 e1 e2 => by
    obtain ⟨_, _, d3, _, d5⟩ := hget i ch ch1 e1 e2
    exact ⟨d3, d5.length_eq.symm⟩⟩
  have hnames1 : m1.channels.map (·.name) = m.channels.map (·.name) := by
    refine List.ext_getElem (by simp [hm1, hlen1]) fun i e1 e2 => ?_
    simp only [List.length_map] at e1 e2
    simp only [List.getElem_map]
    exact (hget i _ _ (List.getElem?_eq_getElem e2) (List.getElem?_eq_getElem e1)).1
  have hsh1 : m1.YieldsShaped := by
    intro ch1 hc1 s1 hs1
    obtain ⟨i, hi, rfl⟩ := List.mem_iff_getElem.1 hc1
    have hi' : i < m.channels.length := by rw [← hlen1]; exact hi
    obtain ⟨_, _, d3, _, d5⟩ := hget i _ _ (List.getElem?_eq_getElem hi') (List.getElem?_eq_getElem hi)
    obtain ⟨s, hs, rfl⟩ := List.mem_iff_getElem.1 hs1
    have hs0 : s < m.channels[i].samples.length := by rw [d5.length_eq]; exact hs
    have hd := (List.forall₂_iff_get.1 d5).2 s hs0 hs
    simp only [List.get_eq_getElem] at hd
    have := hsh _ (List.getElem_mem hi') _ (List.getElem_mem hs0)
    simp only [hm1] at *
    rw [hd.yields, this, d3]
  -- positions of channels in chans
  have hF := mapM_ok_iff.1 hchans
  have hlen' : chans.length = m.channels.length := by rw [← hF.length_eq, hlen1]
  refine ⟨kept.get, names, ne0, vals0, st.1, ?_⟩
  have hchan : ∀ (i : Nat) (ch ch' : Channel), m.channels[i]? = some ch → chans[i]? = some ch' →
      Refit names ne0 vals0 (m.chOff i) ch ch' := by
    intro i ch ch' e1 e2
    have hi1 : i < st.2.length := by rw [hlen1]; exact (List.getElem?_eq_some_iff.1 e1).1
    have hd := hget i ch _ e1 (List.getElem?_eq_getElem hi1)
    have hr := (List.forall₂_iff_get.1 hF).2 i hi1 (List.getElem?_eq_some_iff.1 e2).1
    simp only [List.get_eq_getElem] at hr
    rw [(List.getElem?_eq_some_iff.1 e2).2] at hr
    obtain ⟨off, ho, href⟩ := refitChannel_inv hd (by
      intro smp hs p
      obtain ⟨s, hs', rfl⟩ := List.mem_iff_getElem.1 hs
      have hs0 : s < ch.samples.length := by rw [hd.2.2.2.2.length_eq]; exact hs'
      have hdr := (List.forall₂_iff_get.1 hd.2.2.2.2).2 s hs0 hs'
      simp only [List.get_eq_getElem] at hdr
      have hkp : kept.get p ∉ removed := by
        have hm : kept.get p ∈ (List.finRange P).filter (fun p => decide (p ∉ removed)) :=
          List.get_mem kept p
        simpa using (List.mem_filter.1 hm).2
      by_cases hk : ∀ k ∈ names, ch.samples[s].norm.isExpr k = false
      · cases hnorm : ch.samples[s].norm with
        | number v => right; exact ⟨v, by rw [hdr.norm hk, hnorm]⟩
        | expr e =>
          left
          have hchm : ch ∈ m.channels := List.mem_of_getElem? e1
          obtain ⟨i', hi'⟩ := hset ch hchm _ (List.getElem_mem hs0) e hnorm (kept.get p)
          refine ⟨i', ?_⟩
          have : (m.nps (kept.get p)).name ∉ names := by
            rw [hmemn, ← hselp]; exact hkp
          exact (hdr.kept _ this).trans hi'
      · push Not at hk
        obtain ⟨k, hk, hke⟩ := hk
        right
        exact ⟨_, hdr.normGone k hk (by simpa using hke)⟩) hr
    have hoff : off = m.chOff i := by
      have e3 : m1.channels[i]? = some st.2[i] := List.getElem?_eq_getElem hi1
      have hh := offset_eq (m := m1) (by rw [hnames1]; exact hcn) (m1.split_at e3)
      rw [hd.1] at hh
      rw [hh] at ho
      rw [← Option.some.inj ho]
      exact hlay.chOff i
    rw [← hoff]; exact href
  constructor
  · -- keep is increasing
    have hs : kept.Pairwise (· < ·) := by
      rw [hkept]
      refine List.Pairwise.filter _ ?_
      exact List.pairwise_lt_finRange P
    intro a b hab
    exact List.pairwise_iff_get.1 hs a b hab
  · intro i; rw [hm']
  · intro p
    rw [← hselp, Set.mem_range, ← List.mem_iff_get, hkept, List.mem_filter]
    simp
  · exact hmemn
  · intro k hk
    obtain ⟨p, _, rfl⟩ := List.mem_map.1 hk
    exact ⟨p, rfl⟩
  all_goals first
    | (rw [hm'])
    | skip
  · exact hlen'
  · intro i ch ch' e1 e2
    exact hchan i ch ch' e1 e2
  · exact hvals0
  · intro p
    rw [← hselp]
    refine ⟨fun hq => ?_, fun hq => ?_⟩
    · rw [hp p, if_pos hq]
    · rw [hp p, if_neg hq]
  · intro i ch s smp D e1 e2 hdrop v hv b hb
    have hi1 : i < st.2.length := by rw [hlen1]; exact (List.getElem?_eq_some_iff.1 e1).1
    obtain ⟨_, _, d3, _, d5⟩ := hget i ch _ e1 (List.getElem?_eq_getElem hi1)
    have hs0 := (List.getElem?_eq_some_iff.1 e2).1
    have hs1 : s < st.2[i].samples.length := by rw [← d5.length_eq]; exact hs0
    have hdr := (List.forall₂_iff_get.1 d5).2 s hs0 hs1
    simp only [List.get_eq_getElem] at hdr
    rw [(List.getElem?_eq_some_iff.1 e2).2] at hdr
    have hn : st.2[i].samples[s].norm.value vals0 = .ok v := by
      rw [normEq_of_dropped hdr hdrop]; exact hv
    have e3 : m1.channels[i]? = some st.2[i] := List.getElem?_eq_getElem hi1
    have := nExp_at hsh1 hne0 hvals0 (m1.split_at e3) (List.getElem?_eq_getElem hs1)
      (b := b) (by rw [d3]; exact hb) hn
    have hco : ((List.take i m1.channels).map (·.nbins)).sum = m.chOff i := hlay.chOff i
    rw [hco, hdr.nn, hdr.yields] at this
    rw [this]
    congr 1
    simp only [cutKExp, kExp, delta, hlay.nbins]
    rfl
  · intro ch hc smp hs
    obtain ⟨_, _, hcomp⟩ := nExp_inv hne0
    obtain ⟨i, hi, rfl⟩ := List.mem_iff_getElem.1 hc
    have hi1 : i < st.2.length := by rw [hlen1]; exact hi
    obtain ⟨_, _, _, _, d5⟩ := hget i _ _ (List.getElem?_eq_getElem hi) (List.getElem?_eq_getElem hi1)
    obtain ⟨s, hs0, rfl⟩ := List.mem_iff_getElem.1 hs
    have hs1 : s < st.2[i].samples.length := by rw [← d5.length_eq]; exact hs0
    have hdr := (List.forall₂_iff_get.1 d5).2 s hs0 hs1
    simp only [List.get_eq_getElem] at hdr
    rw [← hdr.nn]
    exact hcomp.norm0 _ (List.getElem_mem hi1) _ (List.getElem_mem hs1)
  · intro f hf θ hθ
    refine sum_split removed f hf θ st.1 fun p => ?_
    rw [hp p]
    by_cases hq : p ∈ removed
    · rw [if_pos hq, if_pos hq, hθ p ((hselp p).1 hq)]
    · rw [if_neg hq, if_neg hq]


theorem _root_.Verif.Dict.mem_of_get?_eq {V : Type} {d : Dict V} {k : String} {v : V}
    (h : d.get? k = some v) : (k, v) ∈ d := by
  induction d with
  | nil => simp at h
  | cons a d ih =>
    obtain ⟨k', w⟩ := a
    rw [Dict.get?_cons] at h
    by_cases hk : k' = k
    · rw [if_pos hk] at h
      subst hk; obtain rfl := Option.some.inj h; simp
    · rw [if_neg hk] at h
      exact List.mem_cons_of_mem _ (ih h)

theorem realVals_np {m : Mdl n P} (hD : m.ctx.Distinct) {x : Fin n → ℝ} {vals : Dict ℝ}
    (h : m.ctx.realVals x = .ok vals) (p : Fin P) :
    vals.get? (m.nps p).name = some (m.nps p).nominal_value := by
  have hD' := hD
  unfold ExprCtx.Distinct at hD'
  have hmem : (m.nps p).name ∈ Dict.keys m.ctx.nps := by
    simp only [ctx, Dict.keys, List.map_ofFn]
    exact List.mem_ofFn.2 ⟨p, rfl⟩
  have hnp : (m.nps p).name ∉ List.ofFn m.ctx.pois := fun hc =>
    (List.nodup_append.1 (List.nodup_append.1 hD').1).2.2 _ hc _ hmem rfl
  have h2 := (ExprCtx.evalLoop_keys m.ctx.exprs _ vals (by rw [ExprCtx.base_keys]; exact hD) h).2
    (m.nps p).name (by rw [ExprCtx.base_keys]; exact List.mem_append_right _ hmem)
  rw [h2, ExprCtx.base_get_np _ _ _ hnp]
  exact Dict.get?_ofFn (fun p => (m.nps p).name) (fun p => (m.nps p).nominal_value) (np_inj hD) p

theorem Removal.layout {m : Mdl n P} {A : Arrays} {rx : String → String → Bool} {pv : Dict (Option ℝ)}
    {P' : Nat} {m' : Mdl n P'} {keep names ne0 vals0 u} (R : Removal m A rx pv m' keep names ne0 vals0 u) :
    SameLayout m m' :=
  ⟨R.len, fun i ch ch' h1 h2 => ⟨(R.chan i ch ch' h1 h2).nbins, (R.chan i ch ch' h1 h2).len⟩⟩

/-- The set-up of the pruned model is as uniform as that of the original. -/
theorem Removal.uniform {m : Mdl n P} {A : Arrays} {rx : String → String → Bool} {pv : Dict (Option ℝ)}
    {P' : Nat} {m' : Mdl n P'} {keep names ne0 vals0 u} (R : Removal m A rx pv m' keep names ne0 vals0 u)
    {w : Nat} (hu : m.Uniform w) : m'.Uniform w := by
  intro ch' hc' smp' hs'
  obtain ⟨i, hi', rfl⟩ := List.mem_iff_getElem.1 hc'
  have hi : i < m.channels.length := by rw [← R.len]; exact hi'
  have hr := R.chan i _ _ (List.getElem?_eq_getElem hi) (List.getElem?_eq_getElem hi')
  obtain ⟨s, hs1, rfl⟩ := List.mem_iff_getElem.1 hs'
  have hs0 : s < m.channels[i].samples.length := by rw [← hr.len]; exact hs1
  obtain ⟨D, hd, _, _, himp, _, hy⟩ := hr.smp s _ _ (List.getElem?_eq_getElem hs0) (List.getElem?_eq_getElem hs1)
  have hu0 := hu _ (List.getElem_mem hi) _ (List.getElem_mem hs0)
  refine ⟨⟨by rw [hy, hr.nbins]; simp, fun par l hl => ?_⟩, fun q => ?_⟩
  · rw [himp] at hl
    rw [hr.nbins]
    exact hu0.1.2 par l (hd.sub _ _ hl)
  · have hnot : (m.nps (keep q)).name ∉ names := by
      rw [R.mem, ← R.range]; exact ⟨q, rfl⟩
    have hget : m'.channels[i].samples[s].impacts.get? (m'.nps q).name =
        m.channels[i].samples[s].impacts.get? (m'.nps q).name := by
      rw [himp, R.nps q, hd.kept _ hnot]
    have hav := Sample.avail_congr hget
    have h2 := hu0.2 (keep q)
    rw [← R.nps q, ← R.variations] at h2
    simp only [Sample.posVars, Sample.negVars] at h2 ⊢
    rw [hav]; exact h2

/-- Two correction factors multiply to the one of the sum. -/
def Factorises (m : Mdl n P) (u : Fin P → ℝ) : Prop :=
  (m.use_linear_nps = false ∧ m.cutoff = 0) ∨ ∀ p, u p = 0

theorem combine_mul {lin : Bool} {c a b : ℝ} (h : (lin = false ∧ c = 0) ∨ a = 0) :
    cutOf c (combine lin a) * cutOf c (combine lin b) = cutOf c (combine lin (a + b)) := by
  rcases h with ⟨rfl, rfl⟩ | rfl
  · simp [cutOf, combine, Real.exp_add]
  · have : cutOf c (combine lin 0) = 1 := by
      cases lin <;> simp [cutOf, combine]
    rw [this, one_mul, zero_add]

theorem Removal.predicts {m : Mdl n P} (hD : m.ctx.Distinct) (hne : ∀ p, (m.nps p).name ≠ "")
    {w : Nat} (hu : m.Uniform w) {A : Arrays} (hA : m.setInternal = .ok A)
    {rx : String → String → Bool} {pv : Dict (Option ℝ)}
    (hmode : (m.use_linear_nps = false ∧ m.cutoff = 0) ∨
      ∀ p, m.Selected rx pv p → removedAt pv (m.nps p) = 0)
    (hnn : ∀ ch ∈ m.channels, ∀ smp ∈ ch.samples, ∀ p, m.Selected rx pv p →
      smp.norm = .expr (m.nps p).name → smp.nominal_norm = (m.nps p).nominal_value)
    {P' : Nat} {m' : Mdl n P'} {keep names ne0 vals0 u} (R : Removal m A rx pv m' keep names ne0 vals0 u)
    {A' : Arrays} (hA' : m'.setInternal = .ok A') {x : Fin n → ℝ} {θ : Fin P → ℝ}
    (hθ : ∀ p, m.Selected rx pv p → θ p = removedAt pv (m.nps p)) {ne'}
    (h : m'.nExp A' x (fun i => θ (keep i)) = .ok ne') :
    ∃ ne, m.nExp A x θ = .ok ne ∧ ∀ s < m.maxSamples, ∀ b < m.nbins, ne s b = ne' s b := by
  have hu' := R.uniform hu
  have hlay := R.layout
  obtain ⟨vals', hv', hc'⟩ := nExp_inv h
  -- the values of the reals
  have hle : Dict.Le (m'.ctx.base x) (m.ctx.base x) := by
    intro k v hk
    simp only [ExprCtx.base, ctx, Dict.get?_append] at hk ⊢
    rw [R.pois] at hk
    cases hp : Dict.get? (List.ofFn fun i => (m.pois i, x i)) k with
    | some w => rw [hp] at hk; exact hk
    | none =>
      rw [hp] at hk
      simp only [Option.none_or] at hk ⊢
      have hk' : (k, v) ∈ List.ofFn fun p => ((m'.nps p).name, (m'.nps p).nominal_value) :=
        Dict.mem_of_get?_eq hk
      obtain ⟨q, hq⟩ := List.mem_ofFn.1 hk'
      rw [R.nps q] at hq
      rw [← (Prod.mk.inj hq).1, ← (Prod.mk.inj hq).2]
      exact Dict.get?_ofFn (fun p => (m.nps p).name) (fun p => (m.nps p).nominal_value) (np_inj hD) (keep q)
  have hexp : m'.ctx.exprs = m.ctx.exprs := R.exprs
  obtain ⟨vals, hv, hlv⟩ := ExprCtx.evalLoop_mono m.ctx.exprs _ _ vals' hle (by
    rw [← hexp]; exact hv')
  have hv1 : m.ctx.realVals x = .ok vals := hv
  -- the norm of a sample
  have hnorm : ∀ ch ∈ m.channels, ∀ smp ∈ ch.samples, ∀ D, DroppedFrom names smp D → ∀ v,
      D.norm.value vals' = .ok v → smp.norm.value vals = .ok v := by
    intro ch hc smp hs D hd v hvv
    by_cases hk : ∀ k ∈ names, smp.norm.isExpr k = false
    · rw [hd.norm hk] at hvv
      exact Norm.value_mono hlv hvv
    · push Not at hk
      obtain ⟨k, hk, hke⟩ := hk
      have hke : smp.norm.isExpr k = true := by simpa using hke
      rw [hd.normGone k hk hke] at hvv
      obtain ⟨p, rfl⟩ := R.sub k hk
      have hse := (R.mem p).1 hk
      have hno : smp.norm = .expr (m.nps p).name := by
        cases hn : smp.norm with
        | number w => rw [hn] at hke; cases hke
        | expr e => rw [hn] at hke; simpa [Norm.isExpr] using hke
      have h1 := hnn ch hc smp hs p hse hno
      rw [hno]
      simp only [Norm.value, if_neg (hne p)] at hvv ⊢
      rw [← Except.ok.inj hvv, h1]
      exact Dict.getItem_ok.2 (realVals_np hD hv1 p)
  have hpair : ∀ (i : Nat) (ch : Channel) (s : Nat) (smp : Sample), m.channels[i]? = some ch →
      ch.samples[s]? = some smp → ∃ ch' smp', m'.channels[i]? = some ch' ∧ ch'.samples[s]? = some smp' ∧
        Refit names ne0 vals0 (m.chOff i) ch ch' := by
    intro i ch s smp h1 h2
    have hi : i < m'.channels.length := by rw [R.len]; exact (List.getElem?_eq_some_iff.1 h1).1
    have hr := R.chan i ch _ h1 (List.getElem?_eq_getElem hi)
    have hs : s < m'.channels[i].samples.length := by rw [hr.len]; exact (List.getElem?_eq_some_iff.1 h2).1
    exact ⟨_, _, List.getElem?_eq_getElem hi, List.getElem?_eq_getElem hs, hr⟩
  have hcomp : m.Computable vals := by
    refine ⟨shapeOk_of_yieldsShaped (uniform_shaped hu), R.nn0, fun ch hc smp hs => ?_⟩
    obtain ⟨i, hi, rfl⟩ := List.mem_iff_getElem.1 hc
    obtain ⟨s, hs', rfl⟩ := List.mem_iff_getElem.1 hs
    obtain ⟨ch', smp', e1, e2, hr⟩ := hpair i _ s _ (List.getElem?_eq_getElem hi) (List.getElem?_eq_getElem hs')
    obtain ⟨D, hd, _, hnm, _⟩ := hr.smp s _ _ (List.getElem?_eq_getElem hs') e2
    obtain ⟨v, hvv⟩ := hc'.value ch' (List.mem_of_getElem? e1) smp' (List.mem_of_getElem? e2)
    rw [hnm] at hvv
    exact ⟨v, hnorm _ hc _ hs D hd v hvv⟩
  obtain ⟨ne, hne', _⟩ := nExp_ok A θ hv1 hcomp
  refine ⟨ne, hne', ?_⟩
  refine nExp_eq_of hlay (uniform_shaped hu) (uniform_shaped hu') hne' h ?_
  intro i ch ch' s smp smp' e1 e2 e3 e4 b hb
  have hr := R.chan i ch ch' e1 e2
  obtain ⟨D, hd, _, hnm, himp, hnv0, hy⟩ := hr.smp s smp smp' e3 e4
  obtain ⟨v, hvv⟩ := hc'.value ch' (List.mem_of_getElem? e2) smp' (List.mem_of_getElem? e4)
  have hnn0' := hc'.norm0 ch' (List.mem_of_getElem? e2) smp' (List.mem_of_getElem? e4)
  have hnn0 := R.nn0 ch (List.mem_of_getElem? e1) smp (List.mem_of_getElem? e3)
  have hb' : b < ch'.nbins := by rw [hr.nbins]; exact hb
  have hpos' := nExp_pos hu' hA' h hv' e2 e4 hb' hvv
  have hvD : D.norm.value vals' = .ok v := by rw [← hnm]; exact hvv
  have hpos := nExp_pos hu hA hne' hv1 e1 e3 hb
    (hnorm ch (List.mem_of_getElem? e1) smp (List.mem_of_getElem? e3) D hd v hvD)
  have href := R.ref i ch s smp D e1 e3 hd _ hnv0 b hb
  rw [cutKExp_eq, chOff, kExp_local hu hA (m.split_at e1) e3 hb] at href
  have hyb : smp'.nominal_yields.getD b 0 = ne0 s (m.chOff i + b) := by
    rw [hy, List.getD_eq_getElem _ _ (by simpa using hb)]; simp
  have hlen : smp'.nominal_yields.length = smp.nominal_yields.length := by
    rw [hy, (hu ch (List.mem_of_getElem? e1) smp (List.mem_of_getElem? e3)).1.1]; simp
  -- the sum over NPs
  set f : Fin P → ℝ → ℝ := fun p t =>
    smp.term m.use_asym_impacts m.use_linear_nps m.variations (m.nps p).name b t with hf
  have hsplit := R.split f (fun p => Sample.term_zero ..) θ hθ
  have hsum' : ∑ q, smp'.term m'.use_asym_impacts m'.use_linear_nps m'.variations (m'.nps q).name b
      (θ (keep q)) = ∑ q, f (keep q) (θ (keep q)) := by
    refine Finset.sum_congr rfl fun q _ => ?_
    have hnot : (m.nps (keep q)).name ∉ names := by
      rw [R.mem, ← R.range]; exact ⟨q, rfl⟩
    rw [R.asym, R.lin, R.variations, R.nps q, hf]
    exact Sample.term_congr (by rw [himp, hd.kept _ hnot]) hlen ..
  rw [hlay.chOff, hyb, hsum', R.lin, R.cutoff] at hpos'
  have hpos2 : ne s (m.chOff i + b) = v / smp.nominal_norm * smp.nominal_yields.getD b 0 *
      cutOf m.cutoff (combine m.use_linear_nps (∑ p, f p (θ p))) := hpos
  have href2 : ne0 s (m.chOff i + b) = smp'.nominal_norm / smp.nominal_norm *
      smp.nominal_yields.getD b 0 * cutOf m.cutoff (combine m.use_linear_nps (∑ p, f p (u p))) := href
  rw [hpos2, hpos', href2, hsplit]
  have hmul := combine_mul (lin := m.use_linear_nps) (c := m.cutoff) (a := ∑ p, f p (u p))
    (b := ∑ q, f (keep q) (θ (keep q))) (by
      rcases hmode with hm | hm
      · exact .inl hm
      · right
        refine Finset.sum_eq_zero fun p _ => ?_
        have : u p = 0 := by
          by_cases hs : m.Selected rx pv p
          · rw [(R.pulls p).1 hs, hm p hs]
          · exact (R.pulls p).2 hs
        rw [this]; exact Sample.term_zero ..)
  rw [← hmul]
  have hnn0'' : smp'.nominal_norm ≠ 0 := hnn0'
  field_simp

/-- The steps of a successful removal. -/
theorem removeNps_ok (m : Mdl n P) (A : Arrays) (rx : String → String → Bool) (pv : Dict (Option ℝ))
    {sels : List (List (Fin P))} {u : Fin P → ℝ} {chs : List Channel} {ne vals vals' chans}
    (h1 : pv.keys.mapM (m.selectNps rx) = .ok sels)
    (h2 : sels.flatten.foldl (m.dropNp pv) (fun _ => 0, m.channels) = (u, chs))
    (h3 : Mdl.nExp { m with channels := chs } A m.poiInit u = .ok ne)
    (h4 : (Mdl.ctx { m with channels := chs }).realVals m.poiInit = .ok vals)
    (h5 : sels.flatten.Nodup)
    (h6 : (Mdl.ctx { m with nps := fun i => m.nps (((List.finRange P).filter (fun p => decide (p ∉ sels.flatten))).get i), channels := chs }).realVals m.poiInit = .ok vals')
    (h7 : chs.mapM (refitChannel { m with nps := fun i => m.nps (((List.finRange P).filter (fun p => decide (p ∉ sels.flatten))).get i), channels := chs } vals' ne vals (Mdl.offsets { m with channels := chs })) = .ok chans) :
    m.removeNps A rx pv = .ok ⟨_, { m with nps := fun i => m.nps (((List.finRange P).filter (fun p => decide (p ∉ sels.flatten))).get i), channels := chans }⟩ := by
  unfold removeNps
  rw [h1]
  simp only [bind_ok]
  rw [h2]
  simp only
  rw [h3]
  simp only [bind_ok]
  rw [h4]
  simp only [bind_ok]
  rw [if_neg (not_not.2 h5)]
  simp only [pure_ok]
  rw [h6]
  simp only [bind_ok]
  rw [h7]
  rfl



theorem chanState_congr {nP : Nat} {l l' : List Channel}
    (h : List.Forall₂ (fun a b => b.name = a.name ∧ b.gaussian = a.gaussian ∧ b.nbins = a.nbins ∧
      b.hessian = a.hessian ∧ b.samples.length = a.samples.length) l l') (st : ChanState) :
    l'.foldl (chanStep nP) st = l.foldl (chanStep nP) st := by
  induction h generalizing st with
  | nil => rfl
  | @cons a b l l' h1 _ ih =>
    obtain ⟨e1, e2, e3, e4, e5⟩ := h1
    rw [List.foldl_cons, List.foldl_cons, ih]
    congr 1
    simp only [chanStep, e1, e2, e3, e4, e5]

theorem Removal.chanState {m : Mdl n P} {A : Arrays} {rx : String → String → Bool} {pv : Dict (Option ℝ)}
    {P' : Nat} {m' : Mdl n P'} {keep names ne0 vals0 u} (R : Removal m A rx pv m' keep names ne0 vals0 u) :
    m'.nbinsPoisson = m.nbinsPoisson ∧ m'.nbinsGaussian = m.nbinsGaussian ∧ m'.chanState = m.chanState := by
  have hF : List.Forall₂ (fun a b : Channel => b.name = a.name ∧ b.gaussian = a.gaussian ∧ b.nbins = a.nbins ∧
      b.hessian = a.hessian ∧ b.samples.length = a.samples.length) m.channels m'.channels := by
    refine List.forall₂_iff_get.2 ⟨R.len.symm, fun i h1 h2 => ?_⟩
    have hr := R.chan i _ _ (List.getElem?_eq_getElem h1) (List.getElem?_eq_getElem h2)
    exact ⟨hr.name, hr.gauss, hr.nbins, hr.hess, hr.len⟩
  have key : ∀ (q : Bool → Bool), ((m'.channels.filter (fun c => q c.gaussian)).map (·.nbins)) =
      ((m.channels.filter (fun c => q c.gaussian)).map (·.nbins)) := by
    intro q
    generalize m.channels = l at hF ⊢
    generalize m'.channels = l' at hF ⊢
    induction hF with
    | nil => rfl
    | @cons a b l l' h1 _ ih =>
      rw [List.filter_cons, List.filter_cons, h1.2.1]
      split_ifs
      · rw [List.map_cons, List.map_cons, ih, h1.2.2.1]
      · exact ih
  have h1 : m'.nbinsPoisson = m.nbinsPoisson := by
    unfold nbinsPoisson; rw [key (fun g => !g)]
  refine ⟨h1, by unfold nbinsGaussian; rw [key (fun g => g)], ?_⟩
  unfold Mdl.chanState
  rw [h1]
  exact chanState_congr hF _

theorem nll_raw_congr {P' : Nat} {m : Mdl n P} {m' : Mdl n P'} (h1 : m'.nbinsPoisson = m.nbinsPoisson)
    (h2 : m'.nbinsGaussian = m.nbinsGaussian) (h3 : m'.chanState = m.chanState)
    (hb : m.nbins = m.nbinsPoisson + m.nbinsGaussian) {A A' : Arrays}
    {x : Fin n → ℝ} {θ : Fin P → ℝ} {θ' : Fin P' → ℝ} {N N'} (hN : m.totBinExp A x θ = .ok N)
    (hN' : m'.totBinExp A' x θ' = .ok N') (heq : ∀ b < m.nbins, N b = N' b) (d : DataV P) (d' : DataV P')
    (hd : d'.counts = d.counts) :
    m'.nll A' x θ' d' false none true = m.nll A x θ d false none true := by
  simp only [nll, hN, hN', bind_ok, Bool.not_false, if_true, pure_ok, h1, hd, quad, h2, poiHessian, h3]
  have e1 : ((List.range m.nbinsPoisson).map fun b => poissonTerm (N' b) (d.counts b)) =
      ((List.range m.nbinsPoisson).map fun b => poissonTerm (N b) (d.counts b)) := by
    refine List.map_congr_left fun b hb' => ?_
    rw [heq b (by rw [hb]; have := List.mem_range.1 hb'; omega)]
  have e2 : ∀ i ∈ Finset.range m.nbinsGaussian, N' (m.nbinsPoisson + i) = N (m.nbinsPoisson + i) := by
    intro i hi
    rw [heq _ (by rw [hb]; have := Finset.mem_range.1 hi; omega)]
  rw [e1]
  congr 3
  congr 2
  refine Finset.sum_congr rfl fun i hi => Finset.sum_congr rfl fun j hj => ?_
  rw [e2 i hi, e2 j hj]

end Mdl
end Verif
