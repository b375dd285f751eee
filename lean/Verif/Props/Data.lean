import Verif.Lemmas.Data
/-!
# C12, C13, C39: datasets
-/
namespace Verif.Props
open Verif DData

/-- C12.  Setting counts succeeds exactly for an empty vector (all counts then are 0) or for a
vector with one entry per model bin (stored as it is). -/
theorem c12_counts (m : DModel) (counts r : List ℝ) :
    setCounts m counts = .ok r ↔
      (counts = [] ∧ r = List.replicate m.nbins 0) ∨
      (counts ≠ [] ∧ counts.length = m.nbins ∧ r = counts) := by
  simp only [setCounts]
  cases counts with
  | nil => simp [eq_comm]
  | cons a l =>
    simp only [List.length_cons, Nat.zero_lt_succ, gt_iff_lt, if_true]
    split_ifs with h
    · simp [h]
    · push Not at h
      simp [h, eq_comm]

/-- C12.  What the code does for a vector of another length: `NameError` (not the documented
`ValueError`), for every such vector. -/
theorem c12_counts_wrong (m : DModel) (counts : List ℝ) (h0 : counts ≠ [])
    (h : counts.length ≠ m.nbins) : setCounts m counts = .error .nameError := by
  have : counts.length > 0 := List.length_pos_iff.2 h0
  simp [setCounts, this, h]

/-- The number of constrained NPs among the first `p`. -/
def constrainedBefore (nps : List (NP ℝ)) (p : Nat) : Nat := ((nps.take p).filter (fun q => !q.isFree)).length

theorem fillConstrained_spec (nps : List (NP ℝ)) (aux : List ℝ)
    (h : (nps.filter (fun q => !q.isFree)).length ≤ aux.length) :
    ∃ r, fillConstrained nps aux = .ok r ∧ r.length = nps.length ∧
      ∀ p (hp : p < nps.length), r[p]? = some (if nps[p].isFree then nps[p].nominal_value
        else aux.getD (constrainedBefore nps p) 0) := by
  induction nps generalizing aux with
  | nil => exact ⟨[], rfl, rfl, by simp⟩
  | cons q nps ih =>
    simp only [fillConstrained]
    by_cases hq : q.isFree
    · obtain ⟨r, h1, h2, h3⟩ := ih aux (by simpa [List.filter_cons, hq] using h)
      refine ⟨q.nominal_value :: r, by simp [hq, h1], by simp [h2], ?_⟩
      intro p hp
      cases p with
      | zero => simp [hq]
      | succ p =>
        simp only [List.getElem?_cons_succ, List.getElem_cons_succ]
        rw [h3 p (by simpa using hp)]
        simp [constrainedBefore, List.filter_cons, hq]
    · cases aux with
      | nil => simp [List.filter_cons, hq] at h
      | cons a aux =>
        obtain ⟨r, h1, h2, h3⟩ := ih aux (by simpa [List.filter_cons, hq] using h)
        refine ⟨a :: r, by simp [hq, h1], by simp [h2], ?_⟩
        intro p hp
        cases p with
        | zero => simp [hq, constrainedBefore]
        | succ p =>
          simp only [List.getElem?_cons_succ, List.getElem_cons_succ]
          rw [h3 p (by simpa using hp)]
          simp [constrainedBefore, List.filter_cons, hq]

/-- C12.  On a model with one auxiliary observable per constrained NP, setting auxiliary observables
succeeds exactly for an empty vector, for one entry per NP, and for one entry per constrained NP;
what is stored always has one entry per NP.  A full vector is stored as it is; the entries of a
compact vector go to the constrained NPs in order, and the free NPs get their nominal value.  Any
other length raises `ValueError`. -/
theorem c12_aux (m : DModel) (hm : m.nauxs = (m.nps.filter (fun q => q.constraint.isSome)).length)
    (aux : List ℝ) :
    (aux.length = m.nps.length → setAuxObs m aux = .ok aux) ∧
    (aux.length ≠ 0 → aux.length ≠ m.nps.length → aux.length ≠ m.nauxs →
      setAuxObs m aux = .error .valueError) ∧
    (aux.length ≠ 0 → aux.length ≠ m.nps.length → aux.length = m.nauxs →
      ∃ r, setAuxObs m aux = .ok r ∧ r.length = m.nps.length ∧
        ∀ p (hp : p < m.nps.length),
          (m.nps[p].constraint ≠ none →
            r[p]? = aux[((m.nps.take p).filter (fun q => q.constraint.isSome)).length]?) ∧
          (m.nps[p].constraint = none → r[p]? = some m.nps[p].nominal_value)) := by
  have hff : (fun q : NP ℝ => q.constraint.isSome) = (fun q => !q.isFree) := by
    funext q
    cases h : q.constraint <;> simp [NP.isFree, h]
  rw [hff] at hm
  refine ⟨setAuxObs_full m aux, ?_, ?_⟩
  · intro h0 h1 h2; simp [setAuxObs, h0, h1, h2]
  · intro h0 h1 h2
    obtain ⟨r, r1, r2, r3⟩ := fillConstrained_spec m.nps aux (by omega)
    refine ⟨r, by simp [setAuxObs, h0, h1, r1, h2]; rw [← h2]; simp [h0, h1], r2, ?_⟩
    intro p hp
    rw [r3 p hp]
    have hcb : ((m.nps.take p).filter (fun q => q.constraint.isSome)).length = constrainedBefore m.nps p := by
      unfold constrainedBefore
      rw [hff]
    rw [hcb]
    refine ⟨fun hf => ?_, fun hf => by simp [NP.isFree, hf]⟩
    replace hf : m.nps[p].isFree = false := by
      cases h : m.nps[p].constraint with
      | none => exact absurd h hf
      | some c => simp [NP.isFree, h]
    rw [hf]
    have hlt : constrainedBefore m.nps p < aux.length := by
      rw [h2, hm]
      have e : m.nps = m.nps.take p ++ m.nps[p] :: m.nps.drop (p + 1) := by
        rw [List.getElem_cons_drop, List.take_append_drop]
      conv_rhs => rw [e]
      rw [List.filter_append, List.length_append, List.filter_cons]
      simp [constrainedBefore, hf]
    simp [List.getD_eq_getElem?_getD, List.getElem?_eq_getElem hlt]

/-- C12.  What the code stores when no auxiliary observables are given: the unscaled nominal value
of each NP, although the stored values are read as pulls.  So the observed pull is 0, as for an NP
at its nominal value, only for NPs whose nominal value is 0. -/
theorem c12_default_aux (m : DModel) :
    ∃ r, setAuxObs m [] = .ok r ∧ r.length = m.nps.length ∧
      ∀ p (hp : p < m.nps.length), r[p]? = some m.nps[p].nominal_value ∧
        (m.nps[p].variation ≠ 0 → (r[p]? = some (m.nps[p].scaledValue m.nps[p].nominal_value) ↔
          m.nps[p].nominal_value = 0)) := by
  refine ⟨m.npNominal, by simp [setAuxObs], by simp [DModel.npNominal], ?_⟩
  intro p hp
  have : m.npNominal[p]? = some m.nps[p].nominal_value := by simp [DModel.npNominal, hp]
  exact ⟨this, fun hv => by rw [this]; simp [NP.scaledValue]⟩

/-- The saved auxiliary values of the NPs: kept where the NP has an auxiliary observable, else 0. -/
noncomputable def keptAux (nps : List (NP ℝ)) (aux : List ℝ) : List ℝ :=
  List.zipWith (fun p a => if p.aux_obs = none then 0 else a) nps aux

theorem reload (m : DModel) (s : DS) (hd : (m.channels.map DChannel.name).Nodup)
    (hg : ∀ c ∈ m.channels, ∀ b, c.kind ≠ .gauss b)
    (hc : s.counts.length = m.nbins) (ha : s.aux_obs.length = m.nps.length)
    (hn : (m.nps.filterMap (·.aux_obs)).Nodup) (hv : ∀ p ∈ m.nps, p.variation ≠ 0) :
    ∃ d, fillDict m s = .ok d ∧
      loadDict m d = .ok ⟨s.counts.map (fun x => (trunc x : ℝ)), keptAux m.nps s.aux_obs⟩ := by
  obtain ⟨chans, h1, h2, h3⟩ := save_all m hd s.counts hc
  have hl := load_all m hd hg (DModel.slices m.channels s.counts) chans chans
    (by rw [slices_length]) (fun c hc' v hv' hnm => findChannel_of chans _ h2 hd v hv' hnm) h3
  refine ⟨_, by simp only [fillDict, h1, bind_ok]; rfl, ?_⟩
  have haux := aux_reload m.nps s.aux_obs ha hn hv
  have hset : setAuxObs m (keptAux m.nps s.aux_obs) = .ok (keptAux m.nps s.aux_obs) :=
    setAuxObs_full m _ (by simp [keptAux, ha])
  have hflat : ((DModel.slices m.channels s.counts).map (List.map (fun x => (trunc x : ℝ)))).flatten =
      s.counts.map (fun x => (trunc x : ℝ)) := by
    rw [← List.map_flatten, DModel.slices_flatten m.channels s.counts hc]
  simp only [loadDict, Dict.getItem, Dict.get?, bind_ok, if_true, auxDict]
  rw [hl]
  simp [auxItems, Dict.get?]
  rw [haux]
  simp [hset, keptAux] at *
  exact hflat

/-- C13.  Saving a dataset and loading it in the same model: the saved file always loads, each count
comes back truncated to an integer (towards 0), and the auxiliary observables come back exactly
(NPs that have none get 0). -/
theorem c13_roundtrip (m : DModel) (s : DS) (hd : (m.channels.map DChannel.name).Nodup)
    (hg : ∀ c ∈ m.channels, ∀ b, c.kind ≠ .gauss b)
    (hc : s.counts.length = m.nbins) (ha : s.aux_obs.length = m.nps.length)
    (hn : (m.nps.filterMap (·.aux_obs)).Nodup) (hv : ∀ p ∈ m.nps, p.variation ≠ 0) :
    ∃ d, fillDict m s = .ok d ∧
      loadDict m d = .ok ⟨s.counts.map (fun x => if 0 ≤ x then (⌊x⌋ : ℝ) else (⌈x⌉ : ℝ)),
        List.zipWith (fun p a => if p.aux_obs = none then 0 else a) m.nps s.aux_obs⟩ := by
  obtain ⟨d, h1, h2⟩ := reload m s hd hg hc ha hn hv
  refine ⟨d, h1, h2.trans ?_⟩
  congr 2
  apply List.map_congr_left
  intro x _
  unfold trunc
  split_ifs <;> rfl

/-- C13.  In particular a dataset with integer counts, on a model without Gaussian channels where
every NP has its own auxiliary observable, is reproduced exactly. -/
theorem c13_exact (m : DModel) (s : DS) (hd : (m.channels.map DChannel.name).Nodup)
    (hg : ∀ c ∈ m.channels, ∀ b, c.kind ≠ .gauss b)
    (hc : s.counts.length = m.nbins) (ha : s.aux_obs.length = m.nps.length)
    (hn : (m.nps.filterMap (·.aux_obs)).Nodup) (hv : ∀ p ∈ m.nps, p.variation ≠ 0)
    (hint : ∀ x ∈ s.counts, ∃ k : ℤ, x = k) (hall : ∀ p ∈ m.nps, p.aux_obs ≠ none) :
    ∃ d, fillDict m s = .ok d ∧ loadDict m d = .ok s := by
  obtain ⟨d, h1, h2⟩ := reload m s hd hg hc ha hn hv
  refine ⟨d, h1, h2.trans ?_⟩
  congr 1
  ext1
  · conv_rhs => rw [← List.map_id s.counts]
    apply List.map_congr_left
    intro x hx
    obtain ⟨k, rfl⟩ := hint x hx
    simp [trunc]
  · simp only [keptAux]
    clear h1 h2 hn hv hg hd hc
    generalize s.aux_obs = aux at *
    generalize m.nps = nps at *
    induction nps generalizing aux with
    | nil => simp at ha; simp [ha]
    | cons p nps ih => cases aux with
      | nil => simp at ha
      | cons a aux =>
        simp only [List.zipWith_cons_cons, hall p (by simp), if_false]
        rw [ih aux (fun p hp => hall p (by simp [hp])) (by simpa using ha)]

/-- C13.  What the code does with Gaussian channels: a saved dataset of a model with a (non-empty)
Gaussian channel can never be loaded again. -/
theorem c13_gaussian_never (m : DModel) (s : DS) (hd : (m.channels.map DChannel.name).Nodup)
    (hc : s.counts.length = m.nbins) (c : DChannel) (hcm : c ∈ m.channels) (b0 : String) (b : List String)
    (hk : c.kind = .gauss (b0 :: b)) :
    ∃ d, fillDict m s = .ok d ∧ ∀ s', loadDict m d ≠ .ok s' := by
  obtain ⟨chans, h1, h2, h3⟩ := save_all m hd s.counts hc
  refine ⟨_, by simp only [fillDict, h1, bind_ok]; rfl, ?_⟩
  intro s' h
  simp only [loadDict, Dict.getItem, Dict.get?, bind_ok, if_true] at h
  obtain ⟨parts, hp, _⟩ := bind_eq_ok.1 h
  obtain ⟨r, hr⟩ := mapM_ok_mem hp c hcm
  simp only [loadOne] at hr
  obtain ⟨v, hv, hr⟩ := bind_eq_ok.1 hr
  obtain ⟨hvm, hvn⟩ := findChannel_ok _ _ hv
  -- `v` is the saved form of `c`
  have : ∃ counts, saveChannel c counts = .ok v := by
    have key : ∀ (cs : List DChannel) (sl : List (List ℝ)) (chans : List (MVal ℝ)), cs.length = sl.length →
        (cs.map DChannel.name).Nodup → c ∈ cs → v ∈ chans →
        List.Forall₂ (fun (p : DChannel × List ℝ) v => saveChannel p.1 p.2 = .ok v) (cs.zip sl) chans →
        ∃ counts, saveChannel c counts = .ok v := by
      intro cs
      induction cs with
      | nil => intro sl chans _ _ hc; cases hc
      | cons a cs ih =>
        intro sl chans hl hn hcm hvm hs
        cases sl with
        | nil => simp at hl
        | cons x sl =>
          simp only [List.zip_cons_cons] at hs
          cases hs with
          | cons hh ht =>
            rename_i w ws
            have hn' := List.nodup_cons.1 hn
            rcases List.mem_cons.1 hvm with rfl | hvm
            · have hac : a.name = c.name := Named.inj (saveChannel_named hh) hvn
              rcases List.mem_cons.1 hcm with rfl | hcm
              · exact ⟨x, hh⟩
              · exact absurd (List.mem_map.2 ⟨c, hcm, hac.symm⟩) hn'.1
            · rcases List.mem_cons.1 hcm with rfl | hcm
              · -- `v` is the saved form of a later channel, with the same name
                exfalso
                have : ∀ (cs : List DChannel) (sl : List (List ℝ)) (ws : List (MVal ℝ)), v ∈ ws →
                    List.Forall₂ (fun (p : DChannel × List ℝ) v => saveChannel p.1 p.2 = .ok v) (cs.zip sl) ws →
                    c.name ∈ cs.map DChannel.name := by
                  intro cs
                  induction cs with
                  | nil => intro sl ws hv hs; simp at hs; subst hs; cases hv
                  | cons a cs ih =>
                    intro sl ws hv hs
                    cases sl with
                    | nil => simp at hs; subst hs; cases hv
                    | cons y sl =>
                      simp only [List.zip_cons_cons] at hs
                      cases hs with
                      | cons hh' ht' =>
                        rcases List.mem_cons.1 hv with rfl | hv
                        · rw [Named.inj hvn (saveChannel_named hh')]; simp
                        · simp only [List.map_cons, List.mem_cons]
                          exact Or.inr (ih sl _ hv ht')
                exact hn'.1 (this cs sl ws hvm ht)
              · exact ih sl ws (by simpa using hl) hn'.2 hcm hvm ht
    exact key m.channels _ chans (by rw [slices_length]) hd hcm hvm h3
  obtain ⟨counts, hsv⟩ := this
  rw [loadChannel_gauss c b0 b hk counts v hsv] at hr
  cases hr

/-- The `data` section with these channels and auxiliary observables. -/
def dataSection (chans aux : List (MVal ℝ)) : Dict (MVal ℝ) :=
  [("data", .dict [("channels", .list chans), ("aux_obs", .list aux)])]

theorem loadDict_section (m : DModel) (chans aux : List (MVal ℝ)) :
    loadDict m (dataSection chans aux) = (do
      let parts ← m.channels.mapM (loadOne chans)
      let a ← auxDict [("channels", .list chans), ("aux_obs", .list aux)]
      let vals ← m.nps.mapM (auxValue a)
      return ⟨parts.flatten, ← setAuxObs m vals⟩) := by
  simp [loadDict, dataSection, Dict.getItem, Dict.get?]

theorem auxDict_section (chans aux : List (MVal ℝ)) :
    auxDict [("channels", .list chans), ("aux_obs", .list aux)] =
      (do return Dict.setAll [] (← aux.mapM auxItem)) := by
  simp [auxDict, Dict.get?]

theorem loadOne_perm (chans chans' : List (MVal ℝ)) (names : List String) (hp : chans.Perm chans')
    (hn : List.Forall₂ Named names chans) (hd : names.Nodup) (c : DChannel) :
    loadOne chans' c = loadOne chans c := by
  simp only [loadOne]
  congr 1
  -- names of the permuted list
  have hn' : ∃ names', List.Forall₂ Named names' chans' ∧ names'.Nodup := by
    have : ∃ names', names.Perm names' ∧ List.Forall₂ Named names' chans' := by
      have h0 : Relation.Comp (List.Forall₂ Named) List.Perm names chans' := ⟨chans, hn, hp⟩
      rw [List.forall₂_comp_perm_eq_perm_comp_forall₂] at h0
      obtain ⟨names', h2, h3⟩ := h0
      exact ⟨names', h2, h3⟩
    obtain ⟨names', h1, h2⟩ := this
    exact ⟨names', h2, h1.nodup_iff.1 hd⟩
  obtain ⟨names', hn', hd'⟩ := hn'
  by_cases h : ∃ v ∈ chans, Named c.name v
  · obtain ⟨v, hv, hvn⟩ := h
    rw [findChannel_of chans names hn hd v hv hvn, findChannel_of chans' names' hn' hd' v (hp.mem_iff.1 hv) hvn]
  · push Not at h
    rw [findChannel_missing chans h, findChannel_missing chans' (fun v hv => h v (hp.mem_iff.2 hv))]

/-- C39.  Channels of a saved dataset are found by name: with distinct names, the order in which they
are listed in the file does not matter, whether the loading succeeds or fails. -/
theorem c39_channel_order (m : DModel) (chans chans' aux : List (MVal ℝ)) (names : List String)
    (hp : chans.Perm chans') (hn : List.Forall₂ (fun s v => item v "name" = .ok (.str s)) names chans)
    (hd : names.Nodup) :
    loadDict m (dataSection chans' aux) = loadDict m (dataSection chans aux) := by
  rw [loadDict_section, loadDict_section, auxDict_section, auxDict_section]
  have : loadOne chans' = loadOne chans := by
    funext c; exact loadOne_perm chans chans' names hp hn hd c
  rw [this]

theorem auxItem_all (l : List (String × ℝ)) : (l.map (fun p => MVal.dict [("name", MVal.str p.1),
    ("value", MVal.num p.2)])).mapM auxItem = .ok l := by
  induction l with
  | nil => rfl
  | cons p l ih =>
    rw [List.map_cons, List.mapM_cons, ih]
    simp [auxItem, item, Dict.getItem, Dict.get?]

/-- C39.  The same for the auxiliary observables. -/
theorem c39_aux_order (m : DModel) (chans : List (MVal ℝ)) (l l' : List (String × ℝ)) (hp : l.Perm l')
    (hd : (l.map Prod.fst).Nodup) :
    loadDict m (dataSection chans (l'.map (fun p => .dict [("name", .str p.1), ("value", .num p.2)]))) =
    loadDict m (dataSection chans (l.map (fun p => .dict [("name", .str p.1), ("value", .num p.2)]))) := by
  rw [loadDict_section, loadDict_section, auxDict_section, auxDict_section, auxItem_all, auxItem_all]
  simp only [bind_ok, pure_ok]
  have hd' : (l'.map Prod.fst).Nodup := (hp.map Prod.fst).nodup_iff.1 hd
  rw [Dict.setAll_nil_eq l hd, Dict.setAll_nil_eq l' hd']
  have : auxValue l' = auxValue l := by
    funext p
    simp only [auxValue]
    cases p.aux_obs with
    | none => rfl
    | some a =>
      have : Dict.get? l' a = Dict.get? l a := by
        cases h : Dict.get? l a with
        | some v =>
          rw [Dict.get?_eq_some_iff l' hd', ← hp.mem_iff, ← Dict.get?_eq_some_iff l hd]; exact h
        | none =>
          rw [Dict.get?_eq_none_iff] at h ⊢
          intro hm
          exact h ((hp.map Prod.fst).mem_iff.2 hm)
      simp only [this]
  rw [this]

/-- C39.  If a channel of the model is missing in the file, loading raises `ValueError`, as soon as
the channels before it (in the model) could be loaded. -/
theorem c39_missing_channel (m : DModel) (chans aux : List (MVal ℝ)) (pre post : List DChannel)
    (c : DChannel) (hm : m.channels = pre ++ c :: post)
    (hpre : ∃ r, pre.mapM (loadOne chans) = .ok r)
    (hc : ∀ v ∈ chans, item v "name" ≠ .ok (.str c.name)) :
    loadDict m (dataSection chans aux) = .error .valueError := by
  rw [loadDict_section, hm, List.mapM_append]
  obtain ⟨r, hr⟩ := hpre
  have : loadOne chans c = .error .valueError := by
    simp [loadOne, findChannel_missing chans hc]
  simp [hr, List.mapM_cons, this]

theorem mapM_zip_length {α β γ : Type} {f : α × β → Except PyErr γ} {a : List α} {b : List β} {r : List γ}
    (h : (a.zip b).mapM f = .ok r) (hl : b.length = a.length) : r.length = a.length := by
  rw [mapM_ok_iff] at h
  rw [← h.length_eq, List.length_zip, hl, Nat.min_self]

theorem loadOne_length {chans : List (MVal ℝ)} {c : DChannel} {r : List ℝ} (h : loadOne chans c = .ok r) :
    r.length = c.nbins := by
  simp only [loadOne] at h
  obtain ⟨v, _, g1⟩ := bind_eq_ok.1 h
  simp only [loadChannel] at g1
  obtain ⟨_, _, g2⟩ := bind_eq_ok.1 g1
  unfold DChannel.nbins
  cases hk : c.kind with
  | single =>
    rw [hk] at g2
    simp only at g2
    split at g2
    · obtain ⟨w, _, g3⟩ := bind_eq_ok.1 g2
      obtain ⟨x, _, g4⟩ := bind_eq_ok.1 g3
      simp at g4; subst g4; rfl
    · obtain ⟨w, _, g3⟩ := bind_eq_ok.1 g2
      obtain ⟨x, _, g4⟩ := bind_eq_ok.1 g3
      simp at g4; subst g4; rfl
    · cases g2
  | range e =>
    rw [hk] at g2
    obtain ⟨l, _, g3⟩ := bind_eq_ok.1 g2
    by_cases hlen : l.length ≠ e.length
    · rw [if_pos hlen] at g3; simp at g3
    rw [if_neg hlen] at g3
    exact mapM_zip_length g3 (by simpa using hlen)
  | multi e =>
    rw [hk] at g2
    obtain ⟨l, _, g3⟩ := bind_eq_ok.1 g2
    by_cases hlen : l.length ≠ e.length
    · rw [if_pos hlen] at g3; simp at g3
    rw [if_neg hlen] at g3
    exact mapM_zip_length g3 (by simpa using hlen)
  | gauss e =>
    rw [hk] at g2
    obtain ⟨l, _, g3⟩ := bind_eq_ok.1 g2
    by_cases hlen : l.length ≠ e.length
    · rw [if_pos hlen] at g3; simp at g3
    rw [if_neg hlen] at g3
    exact mapM_zip_length g3 (by simpa using hlen)

theorem rangeBin_ok {p : ℝ × ℝ} {b : MVal ℝ} {x : ℝ} (hx : loadRangeBin p b = .ok x) :
    item b "lo_edge" = .ok (.num p.1) ∧ item b "hi_edge" = .ok (.num p.2) ∧
      item b "counts" = .ok (.num x) := by
  simp only [loadRangeBin] at hx
  obtain ⟨lo, hlo, h1⟩ := bind_eq_ok.1 hx
  obtain ⟨hi, hhi, h2⟩ := bind_eq_ok.1 h1
  clear hx h1
  cases lo <;> cases hi <;> simp at h2
  rename_i lo hi
  by_cases hh : lo = p.1 ∧ hi = p.2
  · rw [if_pos hh] at h2
    obtain ⟨w, hw, h3⟩ := bind_eq_ok.1 h2
    cases w <;> simp [toFloat] at h3
    subst h3
    exact ⟨by rw [hlo, hh.1], by rw [hhi, hh.2], hw⟩
  · rw [if_neg hh] at h2; cases h2

theorem rangeBins_ok (e : List (ℝ × ℝ)) (l : List (MVal ℝ)) (r : List ℝ) (hlen : l.length = e.length)
    (hr : (e.zip l).mapM (fun p => loadRangeBin p.1 p.2) = .ok r) :
    List.Forall₂ (fun (p : ℝ × ℝ) b => item b "lo_edge" = .ok (.num p.1) ∧
        item b "hi_edge" = .ok (.num p.2)) e l ∧
      List.Forall₂ (fun b x => item b "counts" = .ok (.num x)) l r := by
  induction e generalizing l r with
  | nil => cases l with
    | nil => simp at hr; subst hr; exact ⟨.nil, .nil⟩
    | cons a l => simp at hlen
  | cons p e ih => cases l with
    | nil => simp at hlen
    | cons b l =>
      rw [List.zip_cons_cons, List.mapM_cons] at hr
      obtain ⟨x, hx, h1⟩ := bind_eq_ok.1 hr
      obtain ⟨xs, hxs, h2⟩ := bind_eq_ok.1 h1
      simp only [pure_ok, Except.ok.injEq] at h2
      subst h2
      obtain ⟨a1, a2, a3⟩ := rangeBin_ok hx
      obtain ⟨i1, i2⟩ := ih l xs (by simpa using hlen) hxs
      exact ⟨.cons ⟨a1, a2⟩ i1, .cons a3 i2⟩

theorem load_slice (m : DModel) (chans aux : List (MVal ℝ)) (s : DS)
    (h : loadDict m (dataSection chans aux) = .ok s) (pre post : List DChannel) (c : DChannel)
    (hm : m.channels = pre ++ c :: post) :
    ∃ r, loadOne chans c = .ok r ∧ (s.counts.drop (pre.map DChannel.nbins).sum).take c.nbins = r := by
  rw [loadDict_section] at h
  obtain ⟨parts, hp, h1⟩ := bind_eq_ok.1 h
  obtain ⟨a, _, h2⟩ := bind_eq_ok.1 h1
  obtain ⟨vals, _, h3⟩ := bind_eq_ok.1 h2
  obtain ⟨ax, _, h4⟩ := bind_eq_ok.1 h3
  simp only [pure_ok, Except.ok.injEq] at h4
  subst h4
  rw [hm, List.mapM_append] at hp
  obtain ⟨p1, hp1, hp'⟩ := bind_eq_ok.1 hp
  obtain ⟨p2, hp2, hp''⟩ := bind_eq_ok.1 hp'
  simp only [pure_ok, Except.ok.injEq] at hp''
  rw [List.mapM_cons] at hp2
  obtain ⟨r, hr, hq⟩ := bind_eq_ok.1 hp2
  obtain ⟨rs, _, hq'⟩ := bind_eq_ok.1 hq
  simp only [pure_ok, Except.ok.injEq] at hq'
  subst hq'
  refine ⟨r, hr, ?_⟩
  have hsum : p1.flatten.length = (pre.map DChannel.nbins).sum := by
    rw [mapM_ok_iff] at hp1
    clear hm h h1 h2 h3 hp hp' hp'' hp2
    induction hp1 with
    | nil => rfl
    | cons hab _ ih => simp [ih, loadOne_length hab]
  rw [← hp'', ← hsum]
  simp only [List.flatten_append, List.flatten_cons, List.drop_left]
  rw [← loadOne_length hr, List.take_left]

/-- C39.  A dataset is accepted only if, for each binned-range channel of the model, the file has an
entry with its name and exactly its bins: same number and same edges, in order; and the counts stored
at the position of the channel in the model are those of the entry, in order. -/
theorem c39_bins_checked (m : DModel) (chans aux : List (MVal ℝ)) (s : DS)
    (h : loadDict m (dataSection chans aux) = .ok s) (pre post : List DChannel) (c : DChannel)
    (hm : m.channels = pre ++ c :: post)
    (e : List (ℝ × ℝ)) (hk : c.kind = .range e) :
    ∃ v ∈ chans, item v "name" = .ok (.str c.name) ∧ ∃ l, item v "bins" = .ok (.list l) ∧
      List.Forall₂ (fun (p : ℝ × ℝ) b => item b "lo_edge" = .ok (.num p.1) ∧
        item b "hi_edge" = .ok (.num p.2)) e l ∧
      List.Forall₂ (fun b x => item b "counts" = .ok (.num x)) l
        ((s.counts.drop (pre.map DChannel.nbins).sum).take e.length) := by
  obtain ⟨r, hr, hc⟩ := load_slice m chans aux s h pre post c hm
  simp only [loadOne] at hr
  obtain ⟨v, hv, g1⟩ := bind_eq_ok.1 hr
  obtain ⟨hvm, hvn⟩ := findChannel_ok _ _ hv
  simp only [loadChannel, hk] at g1
  obtain ⟨_, _, g2⟩ := bind_eq_ok.1 g1
  obtain ⟨l, hl, g3⟩ := bind_eq_ok.1 g2
  by_cases hlen : l.length ≠ e.length
  · rw [if_pos hlen] at g3; simp at g3
  rw [if_neg hlen] at g3
  push Not at hlen
  obtain ⟨b1, b2⟩ := rangeBins_ok e l r hlen g3
  refine ⟨v, hvm, hvn, l, ?_, b1, ?_⟩
  · unfold binList at hl
    obtain ⟨w, hw, hl'⟩ := bind_eq_ok.1 hl
    cases w <;> simp at hl'
    subst hl'; exact hw
  · have : e.length = c.nbins := by simp [DChannel.nbins, hk]
    rw [this, hc]; exact b2

theorem namedBin_ok {key p : String} {b : MVal ℝ} {x : ℝ} (hx : loadNamedBin key p b = .ok x) :
    item b "name" = .ok (.str p) ∧ item b key = .ok (.num x) := by
  simp only [loadNamedBin] at hx
  obtain ⟨lo, hlo, h1⟩ := bind_eq_ok.1 hx
  clear hx
  cases lo <;> simp at h1
  rename_i s
  by_cases hh : s = p
  · rw [if_pos hh] at h1
    obtain ⟨w, hw, h3⟩ := bind_eq_ok.1 h1
    cases w <;> simp [toFloat] at h3
    subst h3
    exact ⟨by rw [hlo, hh], hw⟩
  · rw [if_neg hh] at h1; cases h1

theorem namedBins_ok (key : String) (e : List String) (l : List (MVal ℝ)) (r : List ℝ)
    (hlen : l.length = e.length)
    (hr : (e.zip l).mapM (fun p => loadNamedBin key p.1 p.2) = .ok r) :
    List.Forall₂ (fun p b => item b "name" = .ok (.str p)) e l ∧
      List.Forall₂ (fun b x => item b key = .ok (.num x)) l r := by
  induction e generalizing l r with
  | nil => cases l with
    | nil => simp at hr; subst hr; exact ⟨.nil, .nil⟩
    | cons a l => simp at hlen
  | cons p e ih => cases l with
    | nil => simp at hlen
    | cons b l =>
      rw [List.zip_cons_cons, List.mapM_cons] at hr
      obtain ⟨x, hx, h1⟩ := bind_eq_ok.1 hr
      obtain ⟨xs, hxs, h2⟩ := bind_eq_ok.1 h1
      simp only [pure_ok, Except.ok.injEq] at h2
      subst h2
      obtain ⟨a1, a2⟩ := namedBin_ok hx
      obtain ⟨i1, i2⟩ := ih l xs (by simpa using hlen) hxs
      exact ⟨.cons a1 i1, .cons a2 i2⟩

/-- C39.  The same for the named bins of a multi-bin channel: same number and names, in order. -/
theorem c39_names_checked (m : DModel) (chans aux : List (MVal ℝ)) (s : DS)
    (h : loadDict m (dataSection chans aux) = .ok s) (pre post : List DChannel) (c : DChannel)
    (hm : m.channels = pre ++ c :: post)
    (e : List String) (hk : c.kind = .multi e) :
    ∃ v ∈ chans, item v "name" = .ok (.str c.name) ∧ ∃ l, item v "bins" = .ok (.list l) ∧
      List.Forall₂ (fun p b => item b "name" = .ok (.str p)) e l ∧
      List.Forall₂ (fun b x => item b "counts" = .ok (.num x)) l
        ((s.counts.drop (pre.map DChannel.nbins).sum).take e.length) := by
  obtain ⟨r, hr, hc⟩ := load_slice m chans aux s h pre post c hm
  simp only [loadOne] at hr
  obtain ⟨v, hv, g1⟩ := bind_eq_ok.1 hr
  obtain ⟨hvm, hvn⟩ := findChannel_ok _ _ hv
  simp only [loadChannel, hk] at g1
  obtain ⟨_, _, g2⟩ := bind_eq_ok.1 g1
  obtain ⟨l, hl, g3⟩ := bind_eq_ok.1 g2
  by_cases hlen : l.length ≠ e.length
  · rw [if_pos hlen] at g3; simp at g3
  rw [if_neg hlen] at g3
  push Not at hlen
  obtain ⟨b1, b2⟩ := namedBins_ok "counts" e l r hlen g3
  refine ⟨v, hvm, hvn, l, ?_, b1, ?_⟩
  · unfold binList at hl
    obtain ⟨w, hw, hl'⟩ := bind_eq_ok.1 hl
    cases w <;> simp at hl'
    subst hl'; exact hw
  · have : e.length = c.nbins := by simp [DChannel.nbins, hk]
    rw [this, hc]; exact b2

/-- C39.  An auxiliary observable of the model that the file does not list raises `ValueError`, as
soon as the channels could be loaded; entries of the file that the model does not know are ignored. -/
theorem c39_missing_aux (m : DModel) (chans : List (MVal ℝ)) (l : List (String × ℝ))
    (hch : ∃ r, m.channels.mapM (loadOne chans) = .ok r)
    (p : NP ℝ) (hp : p ∈ m.nps) (a : String) (ha : p.aux_obs = some a) (hl : a ∉ l.map Prod.fst) :
    loadDict m (dataSection chans (l.map (fun p => .dict [("name", .str p.1), ("value", .num p.2)]))) =
      .error .valueError := by
  rw [loadDict_section, auxDict_section, auxItem_all]
  obtain ⟨r, hr⟩ := hch
  simp only [hr, bind_ok, pure_ok]
  have hnone : Dict.get? (Dict.setAll [] l) a = none := by
    rw [Dict.get?_setAll_last]
    have : l.reverse.find? (fun p => p.1 = a) = none := by
      rw [List.find?_eq_none]
      intro q hq h
      exact hl (List.mem_map.2 ⟨q, by simpa using hq, by simpa using h⟩)
    simp [this, Dict.get?]
  have hall : ∀ q, auxValue (Dict.setAll [] l) q = .error .valueError ∨
      ∃ x, auxValue (Dict.setAll [] l) q = .ok x := by
    intro q
    simp only [auxValue]
    cases q.aux_obs with
    | none => exact Or.inr ⟨_, rfl⟩
    | some b =>
      simp only
      cases Dict.get? (Dict.setAll [] l) b with
      | none => exact Or.inl rfl
      | some x => exact Or.inr ⟨_, rfl⟩
  have : m.nps.mapM (auxValue (Dict.setAll [] l)) = .error .valueError := by
    generalize m.nps = nps at hp
    induction nps with
    | nil => cases hp
    | cons q nps ih =>
      rw [List.mapM_cons]
      rcases hall q with hq | ⟨x, hq⟩
      · rw [hq]; rfl
      · rcases List.mem_cons.1 hp with rfl | hp
        · simp [auxValue, ha, hnone] at hq
        · rw [hq, ih hp]; rfl
  rw [this]; rfl

/-! ### A concrete model: one binned-range channel, one single-bin channel, one multi-bin channel; a
constrained NP between two free ones -/

noncomputable def demoD : DModel where
  channels := [⟨"SR", .range [(0, 1), (1, 3)]⟩, ⟨"CR", .single⟩, ⟨"VR", .multi ["lo", "hi"]⟩]
  nps := [⟨"f1", 5, 1, none, none⟩, ⟨"bkg", 10, 2, some 2, some "aux_bkg"⟩, ⟨"f2", 0, 1, none, none⟩]
  nauxs := 1

noncomputable def demoDS : DS := ⟨[3, 0, 7, 2, 1], [0, 1/2, 0]⟩

/-- The hypotheses of `c12_aux`, `c13_roundtrip` hold for the model and the dataset. -/
example : demoD.nauxs = (demoD.nps.filter (fun q => q.constraint.isSome)).length ∧
    (demoD.channels.map DChannel.name).Nodup ∧ (∀ c ∈ demoD.channels, ∀ b, c.kind ≠ .gauss b) ∧
    demoDS.counts.length = demoD.nbins ∧ demoDS.aux_obs.length = demoD.nps.length ∧
    (demoD.nps.filterMap (·.aux_obs)).Nodup ∧ (∀ p ∈ demoD.nps, p.variation ≠ 0) ∧
    (∀ x ∈ demoDS.counts, ∃ k : ℤ, x = k) := by
  refine ⟨by simp [demoD], by simp [demoD], by simp [demoD], by simp [demoD, demoDS, DModel.nbins, DChannel.nbins],
    by simp [demoD, demoDS], by simp [demoD], by simp [demoD], ?_⟩
  intro x hx
  simp only [demoDS, List.mem_cons, List.not_mem_nil, or_false] at hx
  rcases hx with rfl | rfl | rfl | rfl | rfl
  exacts [⟨3, by norm_num⟩, ⟨0, by norm_num⟩, ⟨7, by norm_num⟩, ⟨2, by norm_num⟩, ⟨1, by norm_num⟩]

/-- A compact vector of auxiliary observables: the free NP `f1` gets its nominal value 5. -/
example : setAuxObs demoD [1/2] = .ok [5, 1/2, 0] := by
  simp [setAuxObs, demoD, fillConstrained, NP.isFree]

/-- The saved form of `demoDS` loads, and its bins are those of the model: the hypotheses of
`c39_bins_checked` and `c39_names_checked` hold. -/
example : ∃ chans aux s, loadDict demoD (dataSection chans aux) = .ok s ∧
    s.counts = [3, 0, 7, 2, 1] := by
  obtain ⟨d, h1, h2⟩ := c13_roundtrip demoD demoDS (by simp [demoD]) (by simp [demoD])
    (by simp [demoD, demoDS, DModel.nbins, DChannel.nbins]) (by simp [demoD, demoDS]) (by simp [demoD])
    (by simp [demoD])
  simp only [fillDict] at h1
  obtain ⟨chans, _, h1'⟩ := bind_eq_ok.1 h1
  simp only [pure_ok, Except.ok.injEq] at h1'
  refine ⟨chans, (demoD.nps.zip demoDS.aux_obs).filterMap auxEntry, ⟨[3, 0, 7, 2, 1], [0, 1/2, 0]⟩, ?_, ?_⟩
  · have : d = dataSection chans ((demoD.nps.zip demoDS.aux_obs).filterMap auxEntry) := h1'.symm
    rw [← this, h2]
    simp [demoDS, demoD]
  · rfl

/-- Non-integer counts are truncated: 3.7 comes back as 3. -/
example : ∃ d, fillDict ⟨[⟨"SR", .single⟩], [], 0⟩ ⟨[37/10], []⟩ = .ok d ∧
    loadDict ⟨[⟨"SR", .single⟩], [], 0⟩ d = .ok ⟨[3], []⟩ := by
  obtain ⟨d, h1, h2⟩ := c13_roundtrip ⟨[⟨"SR", .single⟩], [], 0⟩ ⟨[37/10], []⟩ (by simp) (by simp)
    (by simp [DModel.nbins, DChannel.nbins]) (by simp) (by simp) (by simp)
  refine ⟨d, h1, h2.trans ?_⟩
  have : ⌊(37/10 : ℝ)⌋ = 3 := by rw [Int.floor_eq_iff]; norm_num
  norm_num [this]

/-- The default auxiliary observable of the constrained NP `bkg` (nominal value 10 ± 2) is the pull
10, not 0. -/
example : setAuxObs demoD [] = .ok [5, 10, 0] ∧
    (⟨"bkg", 10, 2, some 2, some "aux_bkg"⟩ : NP ℝ).scaledValue 10 = 0 := by
  simp [setAuxObs, demoD, DModel.npNominal, NP.scaledValue]

end Verif.Props
