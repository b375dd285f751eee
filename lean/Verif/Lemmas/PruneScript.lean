import Verif.Model.PruneScript
import Verif.Lemmas.RemoveRatio
import Verif.Props.Markup
import Verif.Props.Data
/-! The pruning tools on objects, and on the models used for computations. -/
namespace Verif
namespace Markup
open Mdl

theorem numericPOI_ok {p : ModelPOI ℝ} {r : String × ℝ} (h : numericPOI p = .ok r) :
    p.name = some r.1 ∧ p.initial_value = some r.2 := by
  unfold numericPOI at h
  cases hn : p.name with
  | none => rw [hn] at h; simp [needName] at h
  | some s =>
    cases hi : p.initial_value with
    | none => rw [hn, hi] at h; simp [needName] at h
    | some v => rw [hn, hi] at h; simp [needName] at h; subst h; exact ⟨rfl, rfl⟩

theorem pois_list {o : Obj} {pois : List (String × ℝ)} (h : o.doc.pois.mapM numericPOI = .ok pois) :
    pois = List.ofFn fun i => (o.mdl.pois i, o.mdl.poiInit i) := by
  have hF := mapM_ok_iff.1 h
  apply List.ext_getElem
  · simp [hF.length_eq]
  · intro i h1 h2
    have := (List.forall₂_iff_get.1 hF).2 i (by rw [hF.length_eq]; exact h1) h1
    obtain ⟨k1, k2⟩ := numericPOI_ok this
    simp only [List.get_eq_getElem] at k1 k2
    simp only [List.getElem_ofFn, Obj.mdl, Fin.getElem_fin, k1, k2, Option.getD_some]

theorem nps_list {o : Obj} {nps : List (NP ℝ)} (h : o.doc.nps.mapM ModelNP.numeric = .ok nps) :
    nps = List.ofFn o.mdl.nps := by
  have hF := mapM_ok_iff.1 h
  apply List.ext_getElem
  · simp [hF.length_eq]
  · intro i h1 h2
    have := (List.forall₂_iff_get.1 hF).2 i (by rw [hF.length_eq]; exact h1) h1
    simp only [List.get_eq_getElem] at this
    simp only [List.getElem_ofFn, Obj.mdl, Fin.getElem_fin, this]

theorem setUp_inv {d : ModelDoc RawSample} {f : Flags} {o : Obj} (h : setUp d = .ok o.doc) :
    o.doc.pois = d.pois ∧ o.doc.nps = d.nps ∧ o.doc.exprs = d.exprs ∧ o.doc.aux = d.aux ∧
    o.doc.name = d.name ∧ o.doc.description = d.description ∧
    (∃ nps, o.doc.nps.mapM ModelNP.numeric = .ok nps) ∧
    ∃ vals, o.mdl.ctx.realVals o.mdl.poiInit = .ok vals ∧
      d.channels.mapM (setUpChannel (List.ofFn o.mdl.nps) o.mdl.ctx.reals vals o.mdl.fuel) = .ok o.doc.channels := by
  unfold setUp at h
  simp only [bind_eq_ok] at h
  obtain ⟨pois, hpois, nps, hnps, vals, hvals, chans, hch, h⟩ := h
  have h := Except.ok.inj (ε := PyErr) h
  have e1 : o.doc.pois = d.pois := by rw [← h]
  have e2 : o.doc.nps = d.nps := by rw [← h]
  have e3 : o.doc.exprs = d.exprs := by rw [← h]
  have e4 : o.doc.channels = chans := by rw [← h]
  rw [← e1] at hpois
  rw [← e2] at hnps
  have k1 := pois_list hpois
  have k2 := nps_list hnps
  have hf : o.mdl.fuel = d.exprs.length + 1 := by simp [fuel, Obj.mdl, e3]
  have hb : pois ++ nps.map (fun p => (p.name, p.nominal_value)) = o.mdl.ctx.base o.mdl.poiInit := by
    rw [k1, k2, ExprCtx.base, List.map_ofFn]
    rfl
  have hr : refReals pois nps d.exprs = o.mdl.ctx.reals := by
    rw [k1, k2, refReals, ExprCtx.reals, List.map_ofFn, List.map_ofFn, ← e3]
    simp only [ctx, List.map_ofFn]
    rfl
  refine ⟨e1, e2, e3, by rw [← h], by rw [← h], by rw [← h], ⟨nps, hnps⟩, vals, ?_, ?_⟩
  · rw [ExprCtx.realVals, ← hb, show o.mdl.ctx.exprs = d.exprs from e3]
    exact hvals
  · rw [e4, ← hr, hf, ← k2]
    exact hch

theorem zip_map_self {α β : Type} (l : List α) (f : α → β) : l.zip (l.map f) = l.map fun a => (a, f a) := by
  induction l with
  | nil => rfl
  | cons a l ih => simp [ih]

theorem forall₂_through {α β γ : Type} {R : α → β → Prop} {S : β → γ → Prop} {Q : α → γ → Prop}
    (hQ : ∀ a b c, R a b → S b c → Q a c) {l : List α} {m : List β} {r : List γ} (h1 : List.Forall₂ R l m)
    (h2 : List.Forall₂ S m r) : List.Forall₂ Q l r := by
  induction h1 generalizing r with
  | nil => cases h2; exact .nil
  | cons a _ ih =>
    cases h2 with
    | cons b h2 => exact .cons (hQ _ _ _ a b) (ih h2)

/-- What `dropNp` does to a sample, for several NPs. -/
def dropAll {n P : Nat} (m : Mdl n P) (l : List (Fin P)) (s : Sample) : Sample :=
  l.foldl (fun s p => dropFromSample (m.nps p).name s) s

theorem dropNp_map {n P : Nat} (m : Mdl n P) (pv : Dict (Option ℝ)) (l : List (Fin P)) (u : Fin P → ℝ)
    (chs : List Channel) : (l.foldl (m.dropNp pv) (u, chs)).2 =
      chs.map fun ch => { ch with samples := ch.samples.map (dropAll m l) } := by
  induction l generalizing u chs with
  | nil =>
    have e : dropAll m [] = id := rfl
    simp [e]
  | cons p l ih =>
    rw [List.foldl_cons, dropNp, ih]
    simp [dropAll, Function.comp_def]

theorem refit_chan {n P' : Nat} {m2 : Mdl n P'} {ne : Nat → Nat → ℝ} {vals vals' : Dict ℝ} {offs : Dict Nat}
    {c : ChanDoc Sample} {F : Sample → Sample} {raw : ChanDoc RawSample} {c' : ChanDoc Sample}
    (h : refitDoc ne vals offs (c, { toChannel c with samples := c.samples.map F }) = .ok raw)
    (h' : setUpChannel (List.ofFn m2.nps) m2.ctx.reals vals' m2.fuel raw = .ok c') :
    refitChannel m2 vals' ne vals offs { toChannel c with samples := c.samples.map F } = .ok (toChannel c') := by
  unfold refitDoc at h
  obtain ⟨off, hoff, h3⟩ := bind_eq_ok.1 h
  obtain ⟨raws, hraws, h4⟩ := bind_eq_ok.1 h3
  have h5 := Except.ok.inj (ε := PyErr) h4
  subst h5
  unfold setUpChannel at h'
  obtain ⟨ss, hss, h6⟩ := bind_eq_ok.1 h'
  have h7 := Except.ok.inj (ε := PyErr) h6
  subst h7
  unfold refitChannel
  refine bind_eq_ok.2 ⟨off, hoff, bind_eq_ok.2 ⟨ss, ?_, rfl⟩⟩
  have h1 := mapM_ok_iff.1 hraws
  have h2 := mapM_ok_iff.1 hss
  rw [mapM_ok_iff]
  clear hraws hss h h3 h4 h' h6
  dsimp only at h1 h2 ⊢
  generalize (c.samples.map F).zipIdx = l at h1 ⊢
  clear hoff
  induction h1 generalizing ss with
  | nil => cases h2; exact .nil
  | cons a _ ih =>
    cases h2 with
    | cons b h2 => exact .cons (bind_eq_ok.2 ⟨_, a, b⟩) (ih _ h2)

theorem sigma_ext {n P P' : Nat} {m : Mdl n P} {m' : Mdl n P'} (h : P = P')
    (h1 : m'.pois = m.pois) (h2 : m'.poiInit = m.poiInit) (h3 : ∀ i, m'.nps (Fin.cast h i) = m.nps i)
    (h4 : m'.exprs = m.exprs) (h5 : m'.channels = m.channels) (h6 : m'.use_asym_impacts = m.use_asym_impacts)
    (h7 : m'.use_linear_nps = m.use_linear_nps) (h8 : m'.use_simple_sym_impacts = m.use_simple_sym_impacts)
    (h9 : m'.use_lognormal_terms = m.use_lognormal_terms) (h10 : m'.cutoff = m.cutoff)
    (h11 : m'.variations = m.variations) : (⟨P, m⟩ : Pruned n) = ⟨P', m'⟩ := by
  subst h
  have : m.nps = m'.nps := funext fun i => (h3 i).symm
  cases m; cases m'
  simp_all

/-- The object that a successful call gives, and its model. -/
theorem removeNps_mdl {A : Arrays} {rx : String → String → Bool} {pv : Dict (Option ℝ)} {o o' : Obj}
    (h : removeNps A rx pv o = .ok o') :
    ∃ sels aux' chans', pv.keys.mapM (o.mdl.selectNps rx) = .ok sels ∧
      o' = ⟨{ o.doc with
        aux := aux'
        nps := ((List.finRange o.doc.nps.length).filter fun p => decide (p ∉ sels.flatten)).map (fun p => o.doc.nps[p])
        channels := chans' }, o.flags⟩ ∧
      (sels.flatten.map fun p => o.doc.nps[p]).foldlM popAux o.doc.aux = .ok aux' ∧ sels.flatten.Nodup ∧
      o.mdl.removeNps A rx pv = .ok ⟨_, (⟨{ o.doc with
        aux := aux'
        nps := ((List.finRange o.doc.nps.length).filter fun p => decide (p ∉ sels.flatten)).map (fun p => o.doc.nps[p])
        channels := chans' }, o.flags⟩ : Obj).mdl⟩ ∧
      ∃ chans, initModel { rawDoc o.doc with
        aux := aux'
        nps := ((List.finRange o.doc.nps.length).filter fun p => decide (p ∉ sels.flatten)).map (fun p => o.doc.nps[p])
        channels := chans } o.flags = .ok o' ∧
        ∃ ne vals offs, o.doc.channels.mapM (fun c => refitDoc ne vals offs
          (c, { toChannel c with samples := c.samples.map (dropAll o.mdl sels.flatten) })) = .ok chans := by
  unfold removeNps at h
  obtain ⟨sels, hsel, h⟩ := bind_eq_ok.1 h
  dsimp only at h
  obtain ⟨ne, hne, h⟩ := bind_eq_ok.1 h
  obtain ⟨vals, hvals, h⟩ := bind_eq_ok.1 h
  obtain ⟨chans, hchans, h⟩ := bind_eq_ok.1 h
  obtain ⟨aux', haux, h⟩ := bind_eq_ok.1 h
  by_cases hnd : ¬ sels.flatten.Nodup
  · rw [if_pos hnd] at h; simp at h
  rw [if_neg hnd] at h
  set kept := (List.finRange o.doc.nps.length).filter (fun p => decide (p ∉ sels.flatten)) with hkept
  obtain ⟨hs, hfl, -⟩ := Props.initModel_ok h
  obtain ⟨e1, e2, e3, e4, e5, e6, -, vals', hv', hc'⟩ := setUp_inv (f := o.flags) hs
  obtain ⟨doc', f'⟩ := o'
  obtain ⟨nm, ds, pois, aux, nps, exprs, chs⟩ := doc'
  dsimp only [rawDoc] at e1 e2 e3 e4 e5 e6 hfl hc'
  subst e1 e2 e3 e4 e5 e6 hfl
  have hzip : o.doc.channels.mapM (fun c => refitDoc ne vals
      ({ o.mdl with channels := (sels.flatten.foldl (o.mdl.dropNp pv) (fun _ => 0, o.mdl.channels)).2 } :
        Mdl o.doc.pois.length o.doc.nps.length).offsets
      (c, { toChannel c with samples := c.samples.map (dropAll o.mdl sels.flatten) })) = .ok chans := by
    rw [mapM_ok_iff] at hchans ⊢
    have hz : o.doc.channels.zip (sels.flatten.foldl (o.mdl.dropNp pv) (fun _ => 0, o.mdl.channels)).2 =
        o.doc.channels.map fun c => (c, { toChannel c with samples := c.samples.map (dropAll o.mdl sels.flatten) }) := by
      rw [dropNp_map, show o.mdl.channels = o.doc.channels.map toChannel from rfl, List.map_map,
        zip_map_self]
      rfl
    rw [hz, List.forall₂_map_left_iff] at hchans
    exact hchans
  refine ⟨sels, aux, chs, hsel, rfl, haux, not_not.1 hnd, ?_, chans, h, ne, vals, _, hzip⟩
  unfold Mdl.removeNps
  refine bind_eq_ok.2 ⟨sels, hsel, ?_⟩
  dsimp only
  refine bind_eq_ok.2 ⟨ne, hne, bind_eq_ok.2 ⟨vals, hvals, ?_⟩⟩
  rw [if_neg hnd]
  simp only [pure_ok, bind_ok]
  have hn : ∀ i : Fin kept.length, (⟨{ o.doc with aux := aux, nps := kept.map (fun p => o.doc.nps[p]), channels := chs },
      o.flags⟩ : Obj).mdl.nps (Fin.cast (by simp) i) = o.mdl.nps (kept.get i) := by
    intro i
    simp [Obj.mdl]
  have hofn : List.ofFn (⟨{ o.doc with aux := aux, nps := kept.map (fun p => o.doc.nps[p]), channels := chs },
      o.flags⟩ : Obj).mdl.nps = List.ofFn fun i => o.mdl.nps (kept.get i) := by
    apply List.ext_getElem
    · simp
    · intro i h1 h2
      simp only [List.getElem_ofFn]
      exact hn ⟨i, by simpa using h2⟩
  have hctx : (⟨{ o.doc with aux := aux, nps := kept.map (fun p => o.doc.nps[p]), channels := chs },
      o.flags⟩ : Obj).mdl.ctx = ({ o.mdl with nps := fun i => o.mdl.nps (kept.get i), channels := (sels.flatten.foldl
        (o.mdl.dropNp pv) (fun _ => 0, o.mdl.channels)).2 } : Mdl o.doc.pois.length kept.length).ctx := by
    simp only [ctx]
    congr 1
    have := congrArg (List.map fun p : NP ℝ => (p.name, p.nominal_value)) hofn
    rw [List.map_ofFn, List.map_ofFn] at this
    exact this
  refine bind_eq_ok.2 ⟨vals', by rw [← hctx]; exact hv', bind_eq_ok.2 ⟨chs.map toChannel, ?_, ?_⟩⟩
  · rw [hofn] at hc'
    rw [mapM_ok_iff] at hc' hzip ⊢
    rw [dropNp_map, show o.mdl.channels = o.doc.channels.map toChannel from rfl, List.map_map, List.forall₂_map_left_iff,
      List.forall₂_map_right_iff]
    rw [show (⟨{ o.doc with aux := aux, nps := kept.map (fun p => o.doc.nps[p]), channels := chs },
      o.flags⟩ : Obj).mdl.ctx = _ from hctx] at hc'
    rw [dropNp_map, show o.mdl.channels = o.doc.channels.map toChannel from rfl, List.map_map] at hzip
    refine forall₂_through (fun c raw c' h1 h2 => ?_) hzip hc'
    exact refit_chan (m2 := ({ o.mdl with nps := fun i => o.mdl.nps (kept.get i), channels := _ } :
      Mdl o.doc.pois.length kept.length)) h1 h2
  · congr 1
    exact sigma_ext (by simp) rfl rfl hn rfl rfl rfl rfl rfl rfl rfl rfl


/-! ### What is preserved -/
variable {T : Texts}

/-- The conditions under which saving is faithful, on the objects before `set_np_data`. -/
structure DocGood (T : Texts) (d : ModelDoc RawSample) : Prop where
  loaded : Loaded T d
  poi : ∀ p ∈ d.pois, p.min_value ≠ none ∧ p.max_value ≠ none ∧ p.initial_value ≠ none
  poisson : ∀ c ∈ d.channels, c.cls.isGauss = false
  yields : ∀ c ∈ d.channels, ∀ s ∈ c.samples, ∃ l, s.nominal_yields = some l ∧ l.length = c.cls.nbins
  aux : (d.nps.filterMap (·.aux_obs)).Nodup

theorem setNpData_yields {s : RawSample} {nps : List (NP ℝ)} {reals : Dict Expr} {vals : Dict ℝ} {fuel : Nat}
    {s' : Sample} (h : s.setNpData nps reals vals fuel = .ok s') {l : List ℝ} (hl : s.nominal_yields = some l) :
    s'.nominal_yields = l := by
  rw [setNpData_eq, bind_eq_ok] at h
  obtain ⟨im, -, h1⟩ := h
  have h2 := Except.ok.inj (ε := PyErr) h1
  subst h2
  simp [hl]

theorem setUpChannel_inv {nps : List (NP ℝ)} {reals : Dict Expr} {vals : Dict ℝ} {fuel : Nat}
    {c : ChanDoc RawSample} {c' : ChanDoc Sample} (h : setUpChannel nps reals vals fuel c = .ok c') :
    c'.name = c.name ∧ c'.cls = c.cls ∧
      List.Forall₂ (fun s s' => s.setNpData nps reals vals fuel = .ok s') c.samples c'.samples := by
  unfold setUpChannel at h
  obtain ⟨ss, hss, h1⟩ := bind_eq_ok.1 h
  have h2 := Except.ok.inj (ε := PyErr) h1
  subst h2
  exact ⟨rfl, rfl, mapM_ok_iff.1 hss⟩

theorem DocGood.faithful {d : ModelDoc RawSample} (h : DocGood T d) {f : Flags} {o : Obj}
    (ho : initModel d f = .ok o) : Props.Faithful o := by
  obtain ⟨hs, -, -⟩ := Props.initModel_ok ho
  obtain ⟨e1, -, -, -, -, -, -, vals, -, hc⟩ := setUp_inv (f := f) hs
  have hF := mapM_ok_iff.1 hc
  refine ⟨by rw [e1]; exact h.poi, ?_, ?_⟩
  · intro c' hc'
    obtain ⟨c, hcm, hcc⟩ := forall₂_mem_right hF c' hc'
    rw [(setUpChannel_inv hcc).2.1]
    exact h.poisson c hcm
  · intro c' hc' s' hs'
    obtain ⟨c, hcm, hcc⟩ := forall₂_mem_right hF c' hc'
    obtain ⟨-, k2, k3⟩ := setUpChannel_inv hcc
    obtain ⟨s, hsm, hss⟩ := forall₂_mem_right k3 s' hs'
    obtain ⟨l, hl, hlen⟩ := h.yields c hcm s hsm
    rw [setNpData_yields hss hl, k2, hlen]

/-- After `set_internal_vars`, the object is good again. -/
theorem DocGood.after (hT : T.Lawful) {d : ModelDoc RawSample} (h : DocGood T d) {f : Flags} {o : Obj}
    (ho : initModel d f = .ok o) : DocGood T (rawDoc o.doc) ∧ initModel (rawDoc o.doc) f = .ok o := by
  have hf := h.faithful ho
  obtain ⟨hs, hfl, A, ne, hA, hne⟩ := Props.initModel_ok ho
  obtain ⟨k1, k2⟩ := setUp_raw hT hs h.loaded
  obtain ⟨-, e2, -, -, -, -, -, -⟩ := setUp_inv (f := f) hs
  refine ⟨⟨Props.loaded_of_storable (k2 hf.poi (fun c hc => Props.fillClass_ok (fun b hh e => ?_)) hf.yields),
    hf.poi, ?_, ?_, ?_⟩, Props.initModel_intro k1 hfl hA hne⟩
  · have := hf.poisson c hc; rw [e] at this; cases this
  · intro c hc
    obtain ⟨c', hc', rfl⟩ := List.mem_map.1 hc
    exact hf.poisson c' hc'
  · intro c hc s hs'
    obtain ⟨c', hc', rfl⟩ := List.mem_map.1 hc
    obtain ⟨s', hs'', rfl⟩ := List.mem_map.1 hs'
    exact ⟨_, rfl, hf.yields c' hc' s' hs''⟩
  · show (o.doc.nps.filterMap (·.aux_obs)).Nodup
    rw [e2]
    exact h.aux

/-- Every sample normalised by an expression has impacts for all NPs, after `set_internal_vars`. -/
theorem npDataSet_of_init (hT : T.Lawful) {d : ModelDoc RawSample} (h : Loaded T d) {f : Flags} {o : Obj}
    (ho : initModel d f = .ok o) : o.mdl.NpDataSet := by
  obtain ⟨hs, -, -⟩ := Props.initModel_ok ho
  obtain ⟨-, -, -, -, -, -, -, vals, -, hc⟩ := setUp_inv (f := f) hs
  have hF := mapM_ok_iff.1 hc
  intro ch hch smp hsmp e he p
  obtain ⟨c', hc', rfl⟩ := List.mem_map.1 hch
  obtain ⟨c, hcm, hcc⟩ := forall₂_mem_right hF c' hc'
  obtain ⟨-, -, k3⟩ := setUpChannel_inv hcc
  obtain ⟨s, hsm, hss⟩ := forall₂_mem_right k3 smp hsmp
  rw [setNpData_eq, bind_eq_ok] at hss
  obtain ⟨im, him, h1⟩ := hss
  have h2 := Except.ok.inj (ε := PyErr) h1
  subst h2
  obtain ⟨-, f2, -⟩ := fold_ok hT _ s.impacts im him (h.samples c hcm s hsm).impacts
  rcases f2 with ⟨v, hv⟩ | f2
  · simp only at he; rw [hv] at he; cases he
  · exact f2 _ (List.mem_ofFn.2 ⟨p, rfl⟩)

/-! ### Removal of auxiliary observables -/

theorem filterMap_nodup_inj {α β : Type} {f : α → Option β} {l : List α} (h : (l.filterMap f).Nodup) {i j : Nat}
    {hi : i < l.length} {hj : j < l.length} {b : β} (h1 : f l[i] = some b) (h2 : f l[j] = some b) : i = j := by
  induction l generalizing i j with
  | nil => simp at hi
  | cons a l ih =>
    cases i with
    | zero =>
      cases j with
      | zero => rfl
      | succ j =>
        simp only [List.getElem_cons_zero, List.getElem_cons_succ] at h1 h2
        rw [List.filterMap_cons_some h1, List.nodup_cons] at h
        exact absurd (List.mem_filterMap.2 ⟨_, List.getElem_mem _, h2⟩) h.1
    | succ i =>
      cases j with
      | zero =>
        simp only [List.getElem_cons_zero, List.getElem_cons_succ] at h1 h2
        rw [List.filterMap_cons_some h2, List.nodup_cons] at h
        exact absurd (List.mem_filterMap.2 ⟨_, List.getElem_mem _, h1⟩) h.1
      | succ j =>
        simp only [List.getElem_cons_succ] at h1 h2
        have hn : (l.filterMap f).Nodup := by
          cases hf : f a with
          | none => rwa [List.filterMap_cons_none hf] at h
          | some v => rw [List.filterMap_cons_some hf, List.nodup_cons] at h; exact h.2
        rw [ih hn h1 h2]

/-- What remains. -/
theorem popAux_fold {l : List (ModelNP ℝ)} {aux aux' : List (ModelAux ℝ)} (h : l.foldlM popAux aux = .ok aux') :
    aux'.Sublist aux ∧ ∀ r ∈ aux, (∀ p ∈ l, ∀ a, p.aux_obs = some a → r.name ≠ some a) → r ∈ aux' := by
  induction l generalizing aux with
  | nil =>
    have := Except.ok.inj (ε := PyErr) h
    subst this
    exact ⟨List.Sublist.refl _, fun r hr _ => hr⟩
  | cons p l ih =>
    rw [List.foldlM_cons, bind_eq_ok] at h
    obtain ⟨b, hb, h1⟩ := h
    obtain ⟨i1, i2⟩ := ih h1
    have key : b.Sublist aux ∧ ∀ r ∈ aux, (∀ a, p.aux_obs = some a → r.name ≠ some a) → r ∈ b := by
      unfold popAux at hb
      cases hp : p.aux_obs with
      | none =>
        rw [hp] at hb
        have := Except.ok.inj (ε := PyErr) hb
        subst this
        exact ⟨List.Sublist.refl _, fun r hr _ => hr⟩
      | some a =>
        rw [hp] at hb
        dsimp only at hb
        by_cases h0 : a = ""
        · rw [if_pos h0] at hb
          have := Except.ok.inj (ε := PyErr) hb
          subst this
          exact ⟨List.Sublist.refl _, fun r hr _ => hr⟩
        rw [if_neg h0] at hb
        by_cases h2 : some a ∈ aux.map (·.name)
        · rw [if_pos h2] at hb
          have := Except.ok.inj (ε := PyErr) hb
          subst this
          refine ⟨List.filter_sublist, fun r hr hn => List.mem_filter.2 ⟨hr, by simpa using hn a rfl⟩⟩
        · rw [if_neg h2] at hb; cases hb
    refine ⟨i1.trans key.1, fun r hr hn => i2 r (key.2 r hr fun a ha => hn p (by simp) a ha)
      fun q hq a ha => hn q (by simp [hq]) a ha⟩

theorem dropAll_ok {n P : Nat} (m : Mdl n P) (l : List (Fin P)) (s : Sample) (h : SampleOk T (toRaw s)) :
    (dropAll m l s).name = s.name ∧ SampleOk T (toRaw (dropAll m l s)) := by
  induction l generalizing s with
  | nil => exact ⟨rfl, h⟩
  | cons p l ih =>
    have key : (dropFromSample (m.nps p).name s).name = s.name ∧
        SampleOk T (toRaw (dropFromSample (m.nps p).name s)) := by
      unfold dropFromSample
      split
      · exact ⟨rfl, ⟨(fun e he => by cases he), h.impacts⟩⟩
      · exact ⟨rfl, ⟨h.norm, fun kv hkv => h.impacts kv (List.mem_of_mem_filter hkv)⟩⟩
    obtain ⟨i1, i2⟩ := ih _ key.2
    exact ⟨i1.trans key.1, i2⟩

theorem kept_sublist {α : Type} (l : List α) (f : Fin l.length → Bool) :
    (((List.finRange l.length).filter f).map fun p => l[p]).Sublist l := by
  have h1 : ((List.finRange l.length).map fun p => l[p]) = l := by
    apply List.ext_getElem <;> simp
  conv_rhs => rw [← h1]
  exact List.filter_sublist.map _

theorem refitDoc_inv {ne : Nat → Nat → ℝ} {vals : Dict ℝ} {offs : Dict Nat} {c : ChanDoc Sample} {F : Sample → Sample}
    {raw : ChanDoc RawSample}
    (h : refitDoc ne vals offs (c, { toChannel c with samples := c.samples.map F }) = .ok raw) :
    raw.name = c.name ∧ raw.cls = c.cls ∧
      List.Forall₂ (fun s r => r.name = (F s).name ∧ r.norm = (F s).norm ∧ r.impacts = (F s).impacts ∧
        ∃ l, r.nominal_yields = some l ∧ l.length = c.cls.nbins) c.samples raw.samples := by
  unfold refitDoc at h
  obtain ⟨off, hoff, h3⟩ := bind_eq_ok.1 h
  obtain ⟨raws, hraws, h4⟩ := bind_eq_ok.1 h3
  have h5 := Except.ok.inj (ε := PyErr) h4
  subst h5
  refine ⟨rfl, rfl, ?_⟩
  have h1 := mapM_ok_iff.1 hraws
  dsimp only at h1 ⊢
  rw [List.forall₂_iff_get] at h1 ⊢
  obtain ⟨k1, k2⟩ := h1
  refine ⟨by simpa using k1, fun i h6 h7 => ?_⟩
  have := k2 i (by simpa using h6) h7
  simp only [List.get_eq_getElem, List.getElem_zipIdx, List.getElem_map] at this ⊢
  unfold refitSample at this
  obtain ⟨nn, -, h8⟩ := bind_eq_ok.1 this
  have h9 := Except.ok.inj (ε := PyErr) h8
  rw [← h9]
  exact ⟨rfl, rfl, rfl, _, rfl, by simp [toChannel]⟩

theorem forall₂_names' {α β γ : Type} {R : α → β → Prop} {f : α → γ} {g : β → γ} {l : List α} {r : List β}
    (hf : ∀ a ∈ l, ∀ b, R a b → g b = f a) (h : List.Forall₂ R l r) : r.map g = l.map f := by
  induction h with
  | nil => rfl
  | cons a _ ih => rw [List.map_cons, List.map_cons, hf _ (by simp) _ a, ih fun x hx => hf x (by simp [hx])]

theorem forall₂_names {α β γ : Type} {f : α → γ} {g : β → γ} {l : List α} {r : List β}
    (h : List.Forall₂ (fun a b => g b = f a) l r) : r.map g = l.map f :=
  forall₂_names' (fun _ _ _ hh => hh) h

/-- The document of the pruned model. -/
theorem DocGood.removed {o : Obj} (h : DocGood T (rawDoc o.doc)) {removed : List (Fin o.doc.nps.length)}
    {aux' : List (ModelAux ℝ)} {chans : List (ChanDoc RawSample)} {ne : Nat → Nat → ℝ} {vals : Dict ℝ} {offs : Dict Nat}
    (ha : (removed.map fun p => o.doc.nps[p]).foldlM popAux o.doc.aux = .ok aux')
    (hc : o.doc.channels.mapM (fun c => refitDoc ne vals offs
          (c, { toChannel c with samples := c.samples.map (dropAll o.mdl removed) })) = .ok chans) :
    DocGood T { rawDoc o.doc with
        aux := aux'
        nps := ((List.finRange o.doc.nps.length).filter fun p => decide (p ∉ removed)).map (fun p => o.doc.nps[p])
        channels := chans } := by
  obtain ⟨a1, a2⟩ := popAux_fold ha
  have hsub := kept_sublist o.doc.nps (fun p => decide (p ∉ removed))
  have hF := mapM_ok_iff.1 hc
  have hF' : List.Forall₂ (fun c raw => raw.name = c.name ∧ raw.cls = c.cls ∧
      List.Forall₂ (fun s r => r.name = (dropAll o.mdl removed s).name ∧ r.norm = (dropAll o.mdl removed s).norm ∧
        r.impacts = (dropAll o.mdl removed s).impacts ∧
        ∃ l, r.nominal_yields = some l ∧ l.length = c.cls.nbins) c.samples raw.samples) o.doc.channels chans :=
    hF.imp fun c raw hh => refitDoc_inv hh
  have hok : ∀ c ∈ o.doc.channels, ∀ s ∈ c.samples, SampleOk T (toRaw s) := fun c hcm s hs =>
    h.loaded.samples (rawChannel c) (List.mem_map.2 ⟨c, hcm, rfl⟩) (toRaw s) (List.mem_map.2 ⟨s, hs, rfl⟩)
  have hnames : chans.map (·.name) = o.doc.channels.map (·.name) := by
    exact forall₂_names (hF'.imp fun c raw hh => hh.1)
  have hnodup : ((rawDoc o.doc).channels.map (·.name)) = o.doc.channels.map (·.name) := by
    simp only [rawDoc, List.map_map]; rfl
  refine ⟨⟨?_, ?_, h.loaded.poi_distinct, ?_, ?_, h.loaded.expr_distinct, ?_, ?_, ?_, ?_⟩, h.poi, ?_, ?_, ?_⟩
  · exact fun p hp => h.loaded.np p (hsub.subset hp)
  · intro p hp a hpa
    obtain ⟨r, hr, hra⟩ := List.mem_map.1 (h.loaded.aux_declared p (hsub.subset hp) a hpa)
    refine List.mem_map.2 ⟨r, a2 r hr ?_, hra⟩
    intro q hq b hqb e
    obtain ⟨i, hi, rfl⟩ := List.mem_map.1 hp
    obtain ⟨j, hj, rfl⟩ := List.mem_map.1 hq
    have hij : i ≠ j := by
      rintro rfl
      have := (List.mem_filter.1 hi).2
      simp at this
      exact this hj
    rw [hra] at e
    have e := Option.some.inj e
    subst e
    have hnd := h.aux
    exact hij (Fin.ext (filterMap_nodup_inj hnd (i := i) (j := j) (b := a) hpa hqb))
  · exact h.loaded.aux_distinct.sublist (a1.map _)
  · exact h.loaded.np_distinct.sublist (hsub.map _)
  · rw [hnames, ← hnodup]; exact h.loaded.chan_distinct
  · intro c' hc'
    obtain ⟨c, hcm, k1, k2, k3⟩ := forall₂_mem_right hF' c' hc'
    have := h.loaded.sample_distinct (rawChannel c) (List.mem_map.2 ⟨c, hcm, rfl⟩)
    have e : c'.samples.map (·.name) = (rawChannel c).samples.map (·.name) := by
      have hh := hok c hcm
      simp only [rawChannel, List.map_map]
      refine forall₂_names' (fun s hs r hr => ?_) k3
      rw [hr.1, (dropAll_ok o.mdl removed s (hh s hs)).1]
      rfl
    rw [e]
    exact this
  · intro c' hc' s' hs'
    obtain ⟨c, hcm, k1, k2, k3⟩ := forall₂_mem_right hF' c' hc'
    obtain ⟨s, hsm, j1, j2, j3, -⟩ := forall₂_mem_right k3 s' hs'
    have := (dropAll_ok o.mdl removed s (hok c hcm s hsm)).2
    exact ⟨by rw [j2]; exact this.norm, by rw [j3]; exact this.impacts⟩
  · intro c' hc' s' hs' l hl
    obtain ⟨c, hcm, k1, k2, k3⟩ := forall₂_mem_right hF' c' hc'
    obtain ⟨s, hsm, j1, j2, j3, l', hl', hlen⟩ := forall₂_mem_right k3 s' hs'
    rw [hl'] at hl
    cases hl
    rw [k2, hlen]
  · intro c' hc'
    obtain ⟨c, hcm, k1, k2, k3⟩ := forall₂_mem_right hF' c' hc'
    rw [k2]
    exact h.poisson (rawChannel c) (List.mem_map.2 ⟨c, hcm, rfl⟩)
  · intro c' hc' s' hs'
    obtain ⟨c, hcm, k1, k2, k3⟩ := forall₂_mem_right hF' c' hc'
    obtain ⟨s, hsm, j1, j2, j3, l', hl', hlen⟩ := forall₂_mem_right k3 s' hs'
    exact ⟨l', hl', by rw [k2, hlen]⟩
  · exact h.aux.sublist (hsub.filterMap _)

end Markup
end Verif
