import Verif.Model.Data
import Verif.Lemmas.Except
import Verif.Lemmas.FitData
import Verif.Lemmas.Expr
/-! Lemmas on datasets. -/
namespace Verif
namespace DData

/-- `v` is a markup dictionary with this name. -/
def Named (s : String) (v : MVal ℝ) : Prop := item v "name" = .ok (.str s)

theorem Named.inj {s t : String} {v : MVal ℝ} (h : Named s v) (h' : Named t v) : s = t := by
  unfold Named at h h'
  rw [h] at h'
  cases h'; rfl

theorem findChannel_ok {name : String} (l : List (MVal ℝ)) (v : MVal ℝ)
    (h : findChannel name l = .ok v) : v ∈ l ∧ Named name v := by
  induction l with
  | nil => simp [findChannel] at h
  | cons a l ih =>
    simp only [findChannel] at h
    split at h
    · rename_i s hs
      split_ifs at h with hn
      · cases h; subst hn; exact ⟨by simp, hs⟩
      · exact ⟨by simp [(ih h).1], (ih h).2⟩
    · exact ⟨by simp [(ih h).1], (ih h).2⟩
    · cases h

theorem findChannel_missing {name : String} (l : List (MVal ℝ)) (h : ∀ v ∈ l, ¬ Named name v) :
    findChannel name l = .error .valueError := by
  induction l with
  | nil => rfl
  | cons a l ih =>
    simp only [findChannel]
    split
    · rename_i s hs
      rw [if_neg (by rintro rfl; exact h a (by simp) hs)]
      exact ih (fun v hv => h v (by simp [hv]))
    · exact ih (fun v hv => h v (by simp [hv]))
    · rfl

theorem findChannel_of {name : String} (l : List (MVal ℝ)) (names : List String)
    (hn : List.Forall₂ Named names l) (hd : names.Nodup) (v : MVal ℝ) (hv : v ∈ l)
    (hname : Named name v) : findChannel name l = .ok v := by
  induction hn with
  | nil => cases hv
  | cons hab hrest ih =>
    rename_i s a names l
    simp only [findChannel]
    have ha : item a "name" = .ok (.str s) := hab
    rw [ha]
    simp only
    rcases List.mem_cons.1 hv with rfl | hv'
    · rw [if_pos (Named.inj hab hname)]
    · clear hv
      have hv := hv'
      clear hv'
      have hs : s ≠ name := by
        rintro rfl
        refine (List.nodup_cons.1 hd).1 ?_
        clear ih
        induction hrest with
        | nil => cases hv
        | cons h1 _ ih' =>
          rcases List.mem_cons.1 hv with rfl | hv
          · rw [Named.inj hname h1]; simp
          · have := ih' (by
              have := (List.nodup_cons.1 hd)
              refine List.nodup_cons.2 ⟨fun h => this.1 (by simp [h]), (List.nodup_cons.1 this.2).2⟩) hv
            simp [this]
      rw [if_neg hs]
      exact ih (List.nodup_cons.1 hd).2 hv

theorem saveChannel_named {c : DChannel} {counts : List ℝ} {v : MVal ℝ}
    (h : saveChannel c counts = .ok v) : Named c.name v := by
  simp only [saveChannel] at h
  split_ifs at h
  cases hk : c.kind <;> rw [hk] at h <;> cases h <;> simp [Named, item, Dict.getItem, Dict.get?]

theorem saveChannel_ok (c : DChannel) (counts : List ℝ) (h : counts.length = c.nbins) :
    ∃ v, saveChannel c counts = .ok v := by
  simp only [saveChannel, h, ne_eq, not_true_eq_false, if_false]
  cases c.kind <;> exact ⟨_, rfl⟩

theorem checkName_ok {c : DChannel} {v : MVal ℝ} : checkName c v = .ok () ↔ Named c.name v := by
  unfold checkName Named
  cases h : item v "name" with
  | error e => simp
  | ok w =>
    simp only [bind_ok]
    cases w <;> simp

theorem mapM_zip_range (e : List (ℝ × ℝ)) (counts : List ℝ) (h : counts.length = e.length) :
    ((e.zip (List.zipWith rangeBin e counts)).mapM (fun p => loadRangeBin p.1 p.2)) =
      .ok (counts.map (fun x => (trunc x : ℝ))) := by
  induction e generalizing counts with
  | nil => cases counts with
    | nil => rfl
    | cons a l => simp at h
  | cons a e ih => cases counts with
    | nil => simp at h
    | cons x counts =>
      simp only [List.zipWith_cons_cons, List.zip_cons_cons, List.mapM_cons]
      rw [ih counts (by simpa using h)]
      simp [loadRangeBin, rangeBin, item, Dict.getItem, Dict.get?, toFloat, countVal]

theorem mapM_zip_named (b : List String) (counts : List ℝ) (h : counts.length = b.length) :
    ((b.zip (List.zipWith namedBin b counts)).mapM (fun p => loadNamedBin "counts" p.1 p.2)) =
      .ok (counts.map (fun x => (trunc x : ℝ))) := by
  induction b generalizing counts with
  | nil => cases counts with
    | nil => rfl
    | cons a l => simp at h
  | cons a e ih => cases counts with
    | nil => simp at h
    | cons x counts =>
      simp only [List.zipWith_cons_cons, List.zip_cons_cons, List.mapM_cons]
      rw [ih counts (by simpa using h)]
      simp [loadNamedBin, namedBin, item, Dict.getItem, Dict.get?, toFloat, countVal]

theorem loadChannel_save (c : DChannel) (hc : ∀ b, c.kind ≠ .gauss b) (counts : List ℝ) (v : MVal ℝ)
    (h : saveChannel c counts = .ok v) : loadChannel c v = .ok (counts.map (fun x => (trunc x : ℝ))) := by
  have hn := checkName_ok.2 (saveChannel_named h)
  simp only [loadChannel, hn, bind_ok]
  simp only [saveChannel] at h
  split_ifs at h with hl
  push Not at hl
  unfold DChannel.nbins at hl
  cases hk : c.kind with
  | single =>
    rw [hk] at h hl; cases h
    obtain ⟨x, rfl⟩ := List.length_eq_one_iff.1 hl
    simp [item, Dict.getItem, Dict.get?, toFloat, countVal]
  | range e =>
    rw [hk] at h hl; cases h
    simp only at hl
    simp only [binList, item, Dict.getItem, Dict.get?]
    simp [hl, mapM_zip_range e counts hl]
  | multi b =>
    rw [hk] at h hl; cases h
    simp only at hl
    simp only [binList, item, Dict.getItem, Dict.get?]
    simp [hl, mapM_zip_named b counts hl]
  | gauss b => exact absurd hk (hc b)

theorem loadChannel_gauss (c : DChannel) (b0 : String) (b : List String) (hc : c.kind = .gauss (b0 :: b))
    (counts : List ℝ) (v : MVal ℝ)
    (h : saveChannel c counts = .ok v) : loadChannel c v = .error .keyError := by
  have hn := checkName_ok.2 (saveChannel_named h)
  simp only [loadChannel, hn, bind_ok]
  simp only [saveChannel] at h
  split_ifs at h with hl
  push Not at hl
  unfold DChannel.nbins at hl
  rw [hc] at h hl; cases h
  simp only at hl
  cases counts with
  | nil => simp at hl
  | cons x counts =>
    simp at hl
    rw [hc]
    simp only [binList, item, Dict.getItem, Dict.get?]
    simp [hl, loadNamedBin, namedBin, item, Dict.getItem, Dict.get?]
end DData

namespace DModel

/-- Accumulation of the offsets. -/
def offStep (st : Nat × Dict Nat) (c : DChannel) : Nat × Dict Nat := (st.1 + c.nbins, st.2.set c.name st.1)

theorem offsets_eq (m : DModel) : m.offsets = (m.channels.foldl offStep (0, [])).2 := rfl

theorem fold_offsets_fst (l : List DChannel) (st : Nat × Dict Nat) :
    (l.foldl offStep st).1 = st.1 + (l.map DChannel.nbins).sum := by
  induction l generalizing st with
  | nil => simp
  | cons c l ih => simp [ih, offStep]; omega

theorem fold_offsets_keep (l : List DChannel) (st : Nat × Dict Nat) (k : String)
    (hk : k ∉ l.map DChannel.name) : (l.foldl offStep st).2.get? k = st.2.get? k := by
  induction l generalizing st with
  | nil => rfl
  | cons c l ih =>
    simp only [List.map_cons, List.mem_cons, not_or] at hk
    rw [List.foldl_cons, ih _ hk.2]
    simp only [offStep]
    exact Dict.get?_set_ne _ _ (Ne.symm hk.1)

theorem offsets_get (m : DModel) (hd : (m.channels.map DChannel.name).Nodup) (pre post : List DChannel)
    (c : DChannel) (h : m.channels = pre ++ c :: post) :
    m.offsets.getItem c.name = .ok ((pre.map DChannel.nbins).sum) := by
  rw [Dict.getItem_ok, offsets_eq, h, List.foldl_append, List.foldl_cons, fold_offsets_keep]
  · simp only [offStep, Dict.get?_set_self, fold_offsets_fst, Nat.zero_add]
  · rw [h, List.map_append, List.map_cons] at hd
    exact (List.nodup_cons.1 (List.nodup_append.1 hd).2.1).1

/-- Cutting an array in consecutive slices. -/
def slices : List DChannel → List ℝ → List (List ℝ)
  | [], _ => []
  | c :: cs, l => l.take c.nbins :: slices cs (l.drop c.nbins)

theorem slices_flatten (cs : List DChannel) (l : List ℝ) (h : l.length = (cs.map DChannel.nbins).sum) :
    (slices cs l).flatten = l := by
  induction cs generalizing l with
  | nil => simp at h; simp [slices, h]
  | cons c cs ih =>
    simp only [slices, List.flatten_cons]
    rw [ih]
    · exact List.take_append_drop _ _
    · simp at h ⊢; omega
end DModel

namespace DData

/-- Saving all channels succeeds and writes, under each channel's name, its slice of the counts. -/
theorem save_all (m : DModel) (hd : (m.channels.map DChannel.name).Nodup) (counts : List ℝ)
    (h : counts.length = m.nbins) :
    ∃ chans, m.channels.mapM (saveOne m counts) = .ok chans ∧
      List.Forall₂ Named (m.channels.map DChannel.name) chans ∧
      List.Forall₂ (fun (p : DChannel × List ℝ) v => saveChannel p.1 p.2 = .ok v)
        (m.channels.zip (DModel.slices m.channels counts)) chans := by
  have key : ∀ (cs pre : List DChannel), m.channels = pre ++ cs →
      ∃ chans, cs.mapM (saveOne m counts) = .ok chans ∧
        List.Forall₂ Named (cs.map DChannel.name) chans ∧
        List.Forall₂ (fun (p : DChannel × List ℝ) v => saveChannel p.1 p.2 = .ok v)
          (cs.zip (DModel.slices cs (counts.drop (pre.map DChannel.nbins).sum))) chans := by
    intro cs
    induction cs with
    | nil => intro pre _; exact ⟨[], rfl, .nil, .nil⟩
    | cons c cs ih =>
      intro pre hpre
      obtain ⟨chans, h1, h2, h3⟩ := ih (pre ++ [c]) (by rw [hpre]; simp)
      have hlen : ((counts.drop (pre.map DChannel.nbins).sum).take c.nbins).length = c.nbins := by
        rw [List.length_take, List.length_drop, h, DModel.nbins, hpre]
        simp
      obtain ⟨v, hv⟩ := saveChannel_ok c _ hlen
      have hs : saveOne m counts c = .ok v := by
        simp only [saveOne, m.offsets_get hd pre cs c hpre, bind_ok, hv]
      refine ⟨v :: chans, ?_, .cons (saveChannel_named hv) h2, ?_⟩
      · rw [List.mapM_cons, hs, h1]; rfl
      · simp only [DModel.slices, List.zip_cons_cons]
        refine .cons hv ?_
        simp only [List.map_append, List.map_cons, List.map_nil, List.sum_append, List.sum_cons,
          List.sum_nil, Nat.add_zero] at h3
        rw [List.drop_drop]
        exact h3
  simpa using key m.channels [] rfl

theorem load_all (m : DModel) (hd : (m.channels.map DChannel.name).Nodup)
    (hg : ∀ c ∈ m.channels, ∀ b, c.kind ≠ .gauss b) (sl : List (List ℝ)) (chans l : List (MVal ℝ))
    (hlen : m.channels.length = sl.length)
    (hfind : ∀ c ∈ m.channels, ∀ v ∈ chans, Named c.name v → findChannel c.name l = .ok v)
    (hs : List.Forall₂ (fun (p : DChannel × List ℝ) v => saveChannel p.1 p.2 = .ok v)
        (m.channels.zip sl) chans) :
    m.channels.mapM (loadOne l) = .ok (sl.map (List.map (fun x => (trunc x : ℝ)))) := by
  generalize m.channels = cs at *
  induction cs generalizing sl chans with
  | nil => cases sl with
    | nil => rfl
    | cons a sl => simp at hlen
  | cons c cs ih => cases sl with
    | nil => simp at hlen
    | cons a sl =>
      simp only [List.zip_cons_cons] at hs
      cases hs with
      | cons h1 h2 =>
        rename_i v chans
        rw [List.mapM_cons]
        have : loadOne l c = .ok (a.map (fun x => (trunc x : ℝ))) := by
          simp only [loadOne]
          rw [hfind c (by simp) v (by simp) (saveChannel_named h1), bind_ok]
          exact loadChannel_save c (hg c (by simp)) a v h1
        rw [this, ih sl chans (List.nodup_cons.1 hd).2 (fun c hc => hg c (by simp [hc])) (by simpa using hlen)
          (fun c hc v hv => hfind c (by simp [hc]) v (by simp [hv])) h2]
        rfl

theorem slices_length (cs : List DChannel) (l : List ℝ) : (DModel.slices cs l).length = cs.length := by
  induction cs generalizing l with
  | nil => rfl
  | cons c cs ih => simp [DModel.slices, ih]

/-- The aux. obs. that were saved, as read back. -/
noncomputable def auxPair (p : NP ℝ × ℝ) : Option (String × ℝ) := p.1.aux_obs.map (fun a => (a, p.1.unscaledValue p.2))

theorem auxItems (l : List (NP ℝ × ℝ)) :
    (l.filterMap auxEntry).mapM auxItem = .ok (l.filterMap auxPair) := by
  induction l with
  | nil => rfl
  | cons p l ih =>
    cases h : p.1.aux_obs with
    | none => simp [List.filterMap_cons, auxEntry, auxPair, h]; exact ih
    | some a =>
      simp only [List.filterMap_cons, auxEntry, auxPair, h, Option.map_some, List.mapM_cons]
      rw [show (l.filterMap auxEntry).mapM auxItem = _ from ih]
      simp [auxItem, item, Dict.getItem, Dict.get?]

theorem auxPair_keys (nps : List (NP ℝ)) (aux : List ℝ) (h : aux.length = nps.length) :
    ((nps.zip aux).filterMap auxPair).map Prod.fst = nps.filterMap (·.aux_obs) := by
  induction nps generalizing aux with
  | nil => simp
  | cons p nps ih => cases aux with
    | nil => simp at h
    | cons a aux =>
      simp only [List.zip_cons_cons, List.filterMap_cons, auxPair]
      cases hp : p.aux_obs with
      | none => simpa using ih aux (by simpa using h)
      | some s => simpa using ih aux (by simpa using h)

theorem aux_reload (nps : List (NP ℝ)) (aux : List ℝ) (hl : aux.length = nps.length)
    (hn : (nps.filterMap (·.aux_obs)).Nodup) (hv : ∀ p ∈ nps, p.variation ≠ 0) :
    nps.mapM (auxValue (Dict.setAll [] ((nps.zip aux).filterMap auxPair))) =
      .ok (List.zipWith (fun p a => if p.aux_obs = none then 0 else a) nps aux) := by
  have hnd : (((nps.zip aux).filterMap auxPair).map Prod.fst).Nodup := by
    rw [auxPair_keys nps aux hl]; exact hn
  rw [Dict.setAll_nil_eq _ hnd]
  have hmem : ∀ q ∈ nps.zip aux, auxValue ((nps.zip aux).filterMap auxPair) q.1 =
      .ok (if q.1.aux_obs = none then 0 else q.2) := by
    intro q hq
    cases hp : q.1.aux_obs with
    | none => simp [auxValue, hp]
    | some s =>
      have hg : Dict.get? ((nps.zip aux).filterMap auxPair) s = some (q.1.unscaledValue q.2) := by
        rw [Dict.get?_eq_some_iff _ hnd]
        exact List.mem_filterMap.2 ⟨q, hq, by simp [auxPair, hp]⟩
      have hv' := hv q.1 (List.of_mem_zip hq).1
      simp only [auxValue, hp, hg, reduceCtorEq, if_false, Except.ok.injEq]
      simp [NP.scaledValue, NP.unscaledValue, hv']
  have : ∀ (f : NP ℝ → Except PyErr ℝ) (nps : List (NP ℝ)) (aux : List ℝ), aux.length = nps.length →
      (∀ q ∈ nps.zip aux, f q.1 = .ok (if q.1.aux_obs = none then 0 else q.2)) →
      nps.mapM f = .ok (List.zipWith (fun p a => if p.aux_obs = none then 0 else a) nps aux) := by
    intro f nps
    induction nps with
    | nil => intro aux _ _; rfl
    | cons p nps ih =>
      intro aux hl h
      cases aux with
      | nil => simp at hl
      | cons a aux =>
        rw [List.mapM_cons, h (p, a) (by simp), ih aux (by simpa using hl) (fun q hq => h q (by simp [hq]))]
        rfl
  exact this _ nps aux hl hmem

theorem setAuxObs_full (m : DModel) (aux : List ℝ) (h : aux.length = m.nps.length) :
    setAuxObs m aux = .ok aux := by
  simp only [setAuxObs]
  split_ifs with h0
  · rw [h0] at h
    have h1 : m.nps = [] := List.length_eq_zero_iff.1 h.symm
    have h2 : aux = [] := List.length_eq_zero_iff.1 h0
    simp [DModel.npNominal, h1, h2]
  · rfl
end DData
end Verif
