import Verif.Lemmas.Clone
import Verif.Props.PruneScript
import Mathlib.Logic.Relation
/-!
# C83: clones, and changing one model without changing another
-/
namespace Verif.Props
open Markup Alias

/-- A model of the program that can be cloned: its objects exist, it is set up, the aux. observables of its NPs are declared,
and no Gaussian channel has samples. -/
structure Cloneable (h : Heap) (m : ℕ) : Prop where
  alloc : Allocated h m
  setUp : IsSetUp (Alias.obj h m)
  aux : ∀ p ∈ (Alias.obj h m).doc.nps, ∀ a, p.aux_obs = some a → some a ∈ (Alias.obj h m).doc.aux.map (·.name)
  gauss : ∀ c ∈ (Alias.obj h m).doc.channels, c.cls.isGauss = true → c.samples = []

/-- The model that a clone should be: as the docstring of `Model.clone`, but for the `cutoff` option. -/
noncomputable def cloneOf (o : Obj) (name : Option String) : Obj :=
  ⟨{ o.doc with name := name.or o.doc.name }, { o.flags with cutoff := 0 }⟩

theorem allocC {h : Heap} {m : ℕ} (ha : Allocated h m) : ∀ c ∈ (h.mdls m).chans, AllocC h c := fun c hc =>
  ⟨ha.foot c (Or.inr (Or.inl hc)), fun a haa =>
    ⟨ha.foot _ (Or.inr (Or.inr ⟨c, hc, a, haa, Or.inl rfl⟩)), ha.foot _ (Or.inr (Or.inr ⟨c, hc, a, haa, Or.inr (Or.inl rfl)⟩)),
      ha.foot _ (Or.inr (Or.inr ⟨c, hc, a, haa, Or.inr (Or.inr rfl)⟩))⟩⟩

theorem Ext.foot {h h' : Heap} (e : Ext h h') {m : ℕ} (ha : Allocated h m) : Alias.foot h' m = Alias.foot h m :=
  foot_same fun x hx => e.same x (ha.foot x hx)

theorem Ext.params {h h' : Heap} (e : Ext h h') {m : ℕ} (ha : Allocated h m) : Alias.params h' m = Alias.params h m := by
  unfold Alias.params
  rw [(e.same m (ha.foot m (Or.inl rfl))).mdl]

theorem Ext.alloc {h h' : Heap} (e : Ext h h') {m : ℕ} (ha : Allocated h m) : Allocated h' m :=
  ⟨fun x hx => lt_of_lt_of_le (ha.foot x (by rwa [Ext.foot e ha] at hx)) e.next,
    fun x hx => lt_of_lt_of_le (ha.params x (by rwa [Ext.params e ha] at hx)) e.next⟩

/-- All that is used below on the clone. -/
theorem clone_facts {h : Heap} {m : ℕ} (hc : Cloneable h m) (name : Option String) (b : Bool) :
    ∃ h' m', clone h m name b = .ok (h', m') ∧ Ext h h' ∧ Alias.obj h' m' = cloneOf (Alias.obj h m) name ∧
      (∀ x ∈ Alias.foot h' m', h.next ≤ x ∧ x < h'.next) ∧ Alias.params h' m' = Alias.params h m ∧ NoAlias h' m' ∧
      (h'.mdls m').pois = (h.mdls m).pois := by
  have hC := allocC hc.alloc
  have hg : ∀ c ∈ (h.mdls m).chans, (h.chns c).cls.isGauss = false ∨ (h.chns c).samples = [] := by
    intro c hcm
    have := hc.gauss (Alias.readChan h c) (List.mem_map.2 ⟨c, hcm, rfl⟩)
    cases hgg : (h.chns c).cls.isGauss with
    | false => exact Or.inl rfl
    | true => exact Or.inr (by simpa [Alias.readChan] using this hgg)
  obtain ⟨r, hr⟩ := cloneChans_ok _ h hC hg
  obtain ⟨e, em, n, rd, d1, d2⟩ := cloneChans_spec _ h hC r hr
  have hm0 : m < h.next := hc.alloc.foot m (Or.inl rfl)
  have haux : auxDeclared (Alias.obj h m).doc = true := by
    unfold auxDeclared
    rw [List.all_eq_true]
    intro p hp
    cases hpa : p.aux_obs with
    | none => rfl
    | some a => simpa using hc.aux p hp a hpa
  have hmdl : (newModel r.1 m name r.2).1.mdls r.1.next =
      { h.mdls m with name := name.or (h.mdls m).name, chans := r.2, flags := { (h.mdls m).flags with cutoff := 0 } } := by
    simp only [newModel, Function.update_self, em]
    cases name <;> rfl
  have hobj : Alias.obj (newModel r.1 m name r.2).1 r.1.next = cloneOf (Alias.obj h m) name := by
    unfold Alias.obj cloneOf
    rw [hmdl]
    dsimp only
    rw [← rd]
    simp only [newModel]
    rw [e.pois, e.auxs, e.nps]
    rfl
  have hset : IsSetUp (Alias.obj (newModel r.1 m name r.2).1 r.1.next) := by
    rw [hobj]
    exact hc.setUp.rename _ 0
  have hsame := setInternalVars_same hset
  have he : Ext h (newModel r.1 m name r.2).1 := by
    refine ⟨e.next.trans (by simp [newModel]), fun x hx => ?_, e.pois, e.auxs, e.nps⟩
    have hs := e.same x hx
    refine ⟨hs.arr, hs.imp, hs.smp, hs.chn, ?_⟩
    simp only [newModel]
    rw [Function.update_of_ne (by have := e.next; omega)]
    exact hs.mdl
  refine ⟨(newModel r.1 m name r.2).1, r.1.next, ?_, he, hobj, ?_, ?_, ?_, ?_⟩
  · unfold clone
    rw [hr, bind_ok, if_neg (by rw [haux]; simp)]
    show (setInternalVars (newModel r.1 m name r.2).1 r.1.next >>= _) = _
    rw [hsame, bind_ok]
    show (setAgain b (newModel r.1 m name r.2).1 r.1.next >>= _) = _
    unfold setAgain
    cases b
    · rfl
    · rw [if_pos rfl, hsame]; rfl
  · intro x hx
    unfold Alias.foot at hx
    simp only [Set.mem_setOf_eq, hmdl] at hx
    have hn : r.1.next < (newModel r.1 m name r.2).1.next := by simp [newModel]
    have hnn := e.next
    rcases hx with rfl | hx | ⟨c, hcm, a, ha, hx⟩
    · exact ⟨e.next, hn⟩
    · have := n x hx; exact ⟨this.glo, lt_trans this.ghi hn⟩
    · have hs := (n c hcm).samples a ha
      have e1 : (newModel r.1 m name r.2).1.smps = r.1.smps := rfl
      rw [e1] at hx
      rcases hx with rfl | rfl | rfl
      · exact ⟨hs.glo, lt_trans hs.ghi hn⟩
      · exact ⟨hs.ylo, lt_trans hs.yhi hn⟩
      · exact ⟨hs.ilo, lt_trans hs.ihi hn⟩
  · unfold Alias.params; rw [hmdl]
  · constructor
    · unfold samplesOf; rw [hmdl]; exact d1
    · unfold samplesOf; rw [hmdl]; exact d2
  · rw [hmdl]

/-- C83.  A clone says the same as the model, but for the name and the cutoff; the model is as it was; no object is in both,
and no two samples of the clone share anything.  POIs, NPs and aux. observables are the same objects. -/
theorem c83_clone {h : Heap} {m : ℕ} (hc : Cloneable h m) (name : Option String) (b : Bool) :
    ∃ h' m', clone h m name b = .ok (h', m') ∧ Alias.obj h' m' = cloneOf (Alias.obj h m) name ∧
      Alias.obj h' m = Alias.obj h m ∧ Disjoint (Alias.foot h' m) (Alias.foot h' m') ∧ Allocated h' m ∧ Allocated h' m' ∧
      NoAlias h' m' ∧ Alias.params h' m' = Alias.params h' m ∧ m' ≠ m := by
  obtain ⟨h', m', h1, he, h2, h3, h4, h5, -⟩ := clone_facts hc name b
  have hf := Ext.foot he hc.alloc
  refine ⟨h', m', h1, h2, he.obj hc.alloc, ?_, Ext.alloc he hc.alloc, ⟨fun x hx => (h3 x hx).2, fun x hx => ?_⟩, h5, ?_, ?_⟩
  · rw [hf, Set.disjoint_left]
    intro x hx hx'
    have := hc.alloc.foot x hx
    have := (h3 x hx').1
    omega
  · rw [h4] at hx; exact lt_of_lt_of_le (hc.alloc.params x hx) he.next
  · rw [h4, Ext.params he hc.alloc]
  · rintro rfl
    have := (h3 _ (Or.inl rfl)).1
    have := hc.alloc.foot _ (Or.inl rfl)
    omega

/-- C83.  Without a cutoff and a new name, the clone says exactly what the model says: every prediction, likelihood, or saved
text of one is that of the other. -/
theorem c83_clone_twin {h : Heap} {m : ℕ} (hc : Cloneable h m) (h0 : (Alias.obj h m).flags.cutoff = 0) (b : Bool) :
    ∃ h' m', clone h m none b = .ok (h', m') ∧ Alias.obj h' m' = Alias.obj h m ∧ Alias.obj h' m = Alias.obj h m := by
  obtain ⟨h', m', h1, h2, h3, -⟩ := c83_clone hc none b
  refine ⟨h', m', h1, ?_, h3⟩
  rw [h2]
  unfold cloneOf
  rw [← h0]
  rfl

/-- Finding F108.  The docstring says that all options are those of the original; the cutoff is not. -/
theorem c83_cutoff_dropped {h : Heap} {m : ℕ} (hc : Cloneable h m) (name : Option String) (b : Bool)
    (h0 : (Alias.obj h m).flags.cutoff ≠ 0) : ∃ h' m', clone h m name b = .ok (h', m') ∧ (Alias.obj h' m').flags ≠ (Alias.obj h m).flags := by
  obtain ⟨h', m', h1, h2, -⟩ := c83_clone hc name b
  refine ⟨h', m', h1, fun he => h0 ?_⟩
  rw [← he, h2]
  rfl

/-- Finding F107.  A model with samples in a Gaussian channel cannot be cloned. -/
theorem c83_gauss_clone_fails {h : Heap} {m : ℕ} (hg : ∃ c ∈ (Alias.obj h m).doc.channels, c.cls.isGauss = true ∧ c.samples ≠ [])
    (ha : Allocated h m) (name : Option String) (b : Bool) : clone h m name b = .error .attributeError := by
  have key : ∀ (l : List ℕ) (h : Heap), (∀ c ∈ l, AllocC h c) → (∃ c ∈ l, (h.chns c).cls.isGauss = true ∧ (h.chns c).samples ≠ []) →
      cloneChans h l = .error .attributeError := by
    intro l
    induction l with
    | nil => rintro h - ⟨c, hc, -⟩; cases hc
    | cons a l ih =>
      rintro h hl ⟨c, hc, hg⟩
      simp only [cloneChans]
      by_cases h1 : (h.chns a).cls.isGauss = true ∧ (h.chns a).samples ≠ []
      · have : cloneChan h a = .error .attributeError := by unfold cloneChan; rw [if_pos h1]
        rw [this]; rfl
      · obtain ⟨q, hq⟩ : ∃ q, cloneChan h a = .ok q := by unfold cloneChan; rw [if_neg h1]; exact ⟨_, rfl⟩
        have hcl : c ∈ l := by
          rcases List.mem_cons.1 hc with rfl | hc
          · exact absurd hg h1
          · exact hc
        obtain ⟨e1, -⟩ := cloneChan_spec h a (hl a (by simp)) q hq
        have := ih q.1 (fun b hb => e1.allocC (hl b (by simp [hb]))) ⟨c, hcl, by
          rw [(e1.same c (hl c (by simp [hcl])).self).chn]; exact hg⟩
        rw [hq, bind_ok, this]; rfl
  obtain ⟨cd, hcd, h1, h2⟩ := hg
  obtain ⟨c, hcm, rfl⟩ := List.mem_map.1 hcd
  unfold clone
  rw [key _ h (allocC ha) ⟨c, hcm, h1, fun he => h2 (by simp [Alias.readChan, he])⟩]
  rfl

/-! ## Changes through one model -/

theorem through_alloc {h h' : Heap} {m : ℕ} (ht : Through h m h') (ha : Allocated h m) : Allocated h' m := by
  refine ⟨fun x hx => ?_, fun x hx => lt_of_lt_of_le (ha.params x (ht.uses hx)) ht.next⟩
  rcases ht.grows x hx with h1 | h1
  · exact lt_of_lt_of_le (ha.foot x h1) ht.next
  · exact h1.2

/-- C83.  Any number of changes made through one model leave every other model that shares none of its objects as it was, and
the two still share nothing. -/
theorem c83_independent {h h' : Heap} {m m' : ℕ} (hs : Relation.ReflTransGen (fun a b => Through a m b) h h')
    (ha : Allocated h m) (ha' : Allocated h m') (hd : Disjoint (Alias.foot h m) (Alias.foot h m')) :
    Alias.obj h' m' = Alias.obj h m' ∧ Disjoint (Alias.foot h' m) (Alias.foot h' m') ∧ Allocated h' m ∧ Allocated h' m' := by
  induction hs with
  | refl => exact ⟨rfl, hd, ha, ha'⟩
  | @tail b c _ ht ih =>
    obtain ⟨i1, i2, i3, i4⟩ := ih
    have hsame : ∀ x ∈ Alias.foot b m', Same b c x := fun x hx =>
      ht.keeps x (i4.foot x hx) (fun hx' => (Set.disjoint_left.1 i2) hx' hx)
    have ho := obj_same hsame fun x hx => ht.params x (i4.params x hx)
    have hf := foot_same hsame
    have hp : Alias.params c m' = Alias.params b m' := by
      unfold Alias.params; rw [(hsame m' (Or.inl rfl)).mdl]
    refine ⟨ho.trans i1, ?_, through_alloc ht i3, fun x hx => ?_, fun x hx => ?_⟩
    · rw [hf, Set.disjoint_left]
      intro x hx hx'
      rcases ht.grows x hx with h1 | h1
      · exact (Set.disjoint_left.1 i2) h1 hx'
      · have := i4.foot x hx'; omega
    · rw [hf] at hx; exact lt_of_lt_of_le (i4.foot x hx) ht.next
    · rw [hp] at hx; exact lt_of_lt_of_le (i4.params x hx) ht.next

theorem putImpacts_fold : ∀ (L : List (ℕ × Sample)) (h : Heap),
    ∃ f, L.foldl putImpacts h = { h with imps := f } ∧ ∀ x, x ∉ L.map (fun e => (h.smps e.1).impacts) → f x = h.imps x := by
  intro L
  induction L with
  | nil => intro h; exact ⟨h.imps, rfl, fun _ _ => rfl⟩
  | cons e L ih =>
    intro h
    obtain ⟨f, h1, h2⟩ := ih (putImpacts h e)
    refine ⟨f, h1, fun x hx => ?_⟩
    rw [List.map_cons, List.mem_cons, not_or] at hx
    rw [h2 x hx.2]
    simp [putImpacts, Function.update_of_ne hx.1]

/-- C83.  What the program and its users do to a model goes through that model only: setting it up, removing NPs from it, and
writing to the nominal yields of one of its samples. -/
theorem c83_tools_through {h : Heap} {m : ℕ} (ha : Allocated h m) :
    (∀ h', setInternalVars h m = .ok h' → Through h m h') ∧
    (∀ rx pv h' m', Alias.removeNps rx pv false h m = .ok (h', m') → m' = m ∧ Through h m h') ∧
    (∀ c ∈ (h.mdls m).chans, ∀ a ∈ (h.chns c).samples, ∀ i v, Through h m (pokeYield h a i v)) := by
  refine ⟨fun h' hh => ?_, fun rx pv h' m' hh => ?_, fun c hc a haa i v => ?_⟩
  · unfold setInternalVars at hh
    obtain ⟨o, -, hh⟩ := bind_eq_ok.1 hh
    have := Except.ok.inj (ε := PyErr) hh
    subst this
    obtain ⟨f, h1, h2⟩ := putImpacts_fold (pairs h m o.doc.channels) h
    rw [h1]
    refine ⟨le_refl _, fun x _ hx => ⟨rfl, h2 x fun hc => hx ?_, rfl, rfl, rfl⟩, fun x _ => ⟨rfl, rfl, rfl⟩, fun x hx => Or.inl hx, fun x hx => hx⟩
    obtain ⟨e, he, rfl⟩ := List.mem_map.1 hc
    obtain ⟨c, hc, ha⟩ := pairs_mem h m _ e he
    exact Or.inr (Or.inr ⟨c, hc, _, ha, Or.inr (Or.inr rfl)⟩)
  · unfold Alias.removeNps at hh
    have ht : target false h m = .ok (h, m) := rfl
    rw [ht, bind_ok] at hh
    obtain ⟨A, -, hh⟩ := bind_eq_ok.1 hh
    obtain ⟨o, -, hh⟩ := bind_eq_ok.1 hh
    have := Except.ok.inj (ε := PyErr) hh
    rw [Prod.mk.injEq] at this
    obtain ⟨rfl, rfl⟩ := this
    exact ⟨rfl, putRemoved_through h m o ha⟩
  · refine ⟨le_refl _, fun x _ hx => ⟨?_, rfl, rfl, rfl, rfl⟩, fun x _ => ⟨rfl, rfl, rfl⟩, fun x hx => Or.inl hx, fun x hx => hx⟩
    simp only [pokeYield]
    rw [Function.update_of_ne]
    rintro rfl
    exact hx (Or.inr (Or.inr ⟨c, hc, a, haa, Or.inr (Or.inl rfl)⟩))

/-- C83.  The program's pruning of a clone (`clone_model=True`) and of the model itself.  Pruning a clone leaves the model as
it was; the pruned clone shares no object with it. -/
theorem c83_remove_clone {h : Heap} {m : ℕ} (hc : Cloneable h m) (hn : ByName (Alias.obj h m)) {name : String}
    (hname : (Alias.obj h m).doc.name = some name) {rx : String → String → Bool} {pv : Dict (Option ℝ)} {A : Mdl.Arrays} {o : Obj}
    (hA : (Alias.obj h m).mdl.setInternal = .ok A)
    (ho : Markup.removeNps A rx pv (cloneOf (Alias.obj h m) (some (name ++ "_pruned"))) = .ok o) :
    ∃ h' m', Alias.removeNps rx pv true h m = .ok (h', m') ∧ Alias.obj h' m' = o ∧ Alias.obj h' m = Alias.obj h m ∧
      Disjoint (Alias.foot h' m) (Alias.foot h' m') := by
  obtain ⟨h1, m1, k1, k2, k3, k4, k5, k6, k7, -⟩ := c83_clone hc (some (name ++ "_pruned")) false
  have ht : target true h m = .ok (h1, m1) := by
    unfold target
    have : (h.mdls m).name = some name := hname
    rw [if_pos rfl, this]
    exact k1
  have hA' : (Alias.obj h1 m1).mdl.setInternal = .ok A := by rw [k2]; exact hA
  have hthr := putRemoved_through h1 m1 o k6
  obtain ⟨i1, i2, -⟩ := c83_independent (Relation.ReflTransGen.single hthr) k6 k5 k4.symm
  refine ⟨putRemoved h1 m1 o, m1, ?_, ?_, i1.trans k3, i2.symm⟩
  · unfold Alias.removeNps
    rw [ht, bind_ok]
    dsimp only
    rw [hA', bind_ok, k2, ho]
    rfl
  · refine putRemoved_obj h1 m1 o k7 ?_ ?_
    · rw [k2]; exact ⟨hn.nps, hn.aux⟩
    · rw [k2]; exact removeNps_reduced ho

/-- C83.  Pruning in place changes the model to what the tool computes, and no model that shares no object with it. -/
theorem c83_remove_in_place {h : Heap} {m : ℕ} (ha : Allocated h m) (hna : NoAlias h m) (hn : ByName (Alias.obj h m))
    {rx : String → String → Bool} {pv : Dict (Option ℝ)} {A : Mdl.Arrays} {o : Obj}
    (hA : (Alias.obj h m).mdl.setInternal = .ok A) (ho : Markup.removeNps A rx pv (Alias.obj h m) = .ok o) :
    ∃ h', Alias.removeNps rx pv false h m = .ok (h', m) ∧ Alias.obj h' m = o ∧
      ∀ m', Allocated h m' → Disjoint (Alias.foot h m) (Alias.foot h m') → Alias.obj h' m' = Alias.obj h m' := by
  have hthr := putRemoved_through h m o ha
  refine ⟨putRemoved h m o, ?_, putRemoved_obj h m o hna hn (removeNps_reduced ho), fun m' ha' hd =>
    (c83_independent (Relation.ReflTransGen.single hthr) ha ha' hd).1⟩
  unfold Alias.removeNps
  show (Except.ok (h, m) >>= _) = _
  rw [bind_ok]
  dsimp only
  rw [hA, bind_ok, ho]
  rfl

theorem setUp_name {d : ModelDoc RawSample} (name : Option String) :
    Markup.setUp { d with name := name } = (Markup.setUp d).map fun r => { r with name := name } := by
  unfold Markup.setUp
  cases h1 : d.pois.mapM numericPOI with
  | error e => simp [h1, Except.map]
  | ok pois =>
  cases h2 : d.nps.mapM ModelNP.numeric with
  | error e => simp [h1, h2, Except.map]
  | ok nps =>
  cases h3 : refVals pois nps d.exprs with
  | error e => simp [h1, h2, h3, Except.map]
  | ok vals =>
  cases h4 : d.channels.mapM (setUpChannel nps (refReals pois nps d.exprs) vals (d.exprs.length + 1)) with
  | error e => simp [h1, h2, h3, h4, Except.map]
  | ok chans => simp [h1, h2, h3, h4, Except.map]

theorem initModel_name {d : ModelDoc RawSample} {f : Flags} {o : Obj} (h : initModel d f = .ok o) (name : Option String) :
    initModel { d with name := name } f = .ok ⟨{ o.doc with name := name }, o.flags⟩ := by
  obtain ⟨h1, h2, A, ne, hA, hne⟩ := initModel_ok h
  refine initModel_intro (A := A) (ne := ne) ?_ h2 hA hne
  rw [setUp_name, h1]
  rfl

/-- The pruned model does not depend on the name. -/
theorem removeNps_name {A : Mdl.Arrays} {rx : String → String → Bool} {pv : Dict (Option ℝ)} {o o' : Obj}
    (h : Markup.removeNps A rx pv o = .ok o') (name : Option String) :
    Markup.removeNps A rx pv ⟨{ o.doc with name := name }, o.flags⟩ = .ok ⟨{ o'.doc with name := name }, o'.flags⟩ := by
  unfold Markup.removeNps at h
  obtain ⟨sels, h1, h⟩ := bind_eq_ok.1 h
  obtain ⟨ne, h2, h⟩ := bind_eq_ok.1 h
  obtain ⟨vals, h3, h⟩ := bind_eq_ok.1 h
  obtain ⟨chans, h4, h⟩ := bind_eq_ok.1 h
  obtain ⟨aux, h5, h⟩ := bind_eq_ok.1 h
  unfold Markup.removeNps
  refine bind_eq_ok.2 ⟨sels, h1, bind_eq_ok.2 ⟨ne, h2, bind_eq_ok.2 ⟨vals, h3, bind_eq_ok.2 ⟨chans, h4, bind_eq_ok.2 ⟨aux, h5, ?_⟩⟩⟩⟩⟩
  by_cases hnd : sels.flatten.Nodup
  · simp only [hnd, not_true_eq_false, if_false] at h ⊢
    exact initModel_name h name
  · simp only [hnd, not_false_eq_true, if_true] at h
    cases h

/-- C83.  Pruning a clone gives what pruning the model itself would give, under the other name (for models without cutoff). -/
theorem c83_remove_alike {h : Heap} {m : ℕ} (hc : Cloneable h m) (hna : NoAlias h m) (hn : ByName (Alias.obj h m)) {name : String}
    (hname : (Alias.obj h m).doc.name = some name) (h0 : (Alias.obj h m).flags.cutoff = 0)
    {rx : String → String → Bool} {pv : Dict (Option ℝ)} {h1 : Heap} (hr : Alias.removeNps rx pv false h m = .ok (h1, m)) :
    ∃ h' m', Alias.removeNps rx pv true h m = .ok (h', m') ∧ Alias.obj h' m = Alias.obj h m ∧
      Alias.obj h' m' = ⟨{ (Alias.obj h1 m).doc with name := some (name ++ "_pruned") }, (Alias.obj h1 m).flags⟩ := by
  have hh := hr
  unfold Alias.removeNps at hh
  have ht : target false h m = .ok (h, m) := rfl
  rw [ht, bind_ok] at hh
  obtain ⟨A, hA, hh⟩ := bind_eq_ok.1 hh
  obtain ⟨o, ho, -⟩ := bind_eq_ok.1 hh
  obtain ⟨h2, k1, k2, -⟩ := c83_remove_in_place hc.alloc hna hn hA ho
  rw [hr] at k1
  have k1 := Except.ok.inj (ε := PyErr) k1
  rw [Prod.mk.injEq] at k1
  obtain ⟨rfl, -⟩ := k1
  have he : cloneOf (Alias.obj h m) (some (name ++ "_pruned")) =
      ⟨{ (Alias.obj h m).doc with name := some (name ++ "_pruned") }, (Alias.obj h m).flags⟩ := by
    unfold cloneOf
    rw [← h0]
    rfl
  obtain ⟨h', m', j1, j2, j3, -⟩ := c83_remove_clone hc hn hname hA (o := ⟨{ o.doc with name := some (name ++ "_pruned") }, o.flags⟩)
    (rx := rx) (pv := pv) (by rw [he]; exact removeNps_name ho _)
  exact ⟨h', m', j1, j3, by rw [j2, k2]⟩

/-- C83.  The POIs of a clone are the objects of the model: a range or initial value set through one is seen by both. -/
theorem c83_shared_pois {h : Heap} {m : ℕ} (hc : Cloneable h m) (name : Option String) (b : Bool) :
    ∃ h' m', clone h m name b = .ok (h', m') ∧ ∀ a ∈ (h'.mdls m').pois, ∀ p,
      p ∈ (Alias.obj (pokePoi h' a p) m).doc.pois ∧
      (Alias.obj (pokePoi h' a p) m).doc.pois = (Alias.obj (pokePoi h' a p) m').doc.pois := by
  obtain ⟨h', m', h1, he, h2, h3, h4, h5, h6⟩ := clone_facts hc name b
  have e1 : (h'.mdls m).pois = (h'.mdls m').pois := by
    rw [(he.same m (hc.alloc.foot m (Or.inl rfl))).mdl, h6]
  refine ⟨h', m', h1, fun a ha p => ⟨?_, ?_⟩⟩
  · refine List.mem_map.2 ⟨a, ?_, by simp [pokePoi]⟩
    show a ∈ (h'.mdls m).pois
    rw [e1]; exact ha
  · show (h'.mdls m).pois.map _ = (h'.mdls m').pois.map _
    rw [e1]

/-- Finding F109.  `PlotImpacts.impacts` never returns for a model with NPs: the minimizer is cloned with an argument that
`clone` does not have. -/
theorem c83_impacts_never (fit : Dict ℝ) (remove : String → ℝ → Except PyErr Unit) (fits : String → Except PyErr (ℝ × ℝ))
    {nps : List String} (hn : nps ≠ []) (r : List (String × ℝ × ℝ)) : impactsLoop fit remove fits nps ≠ .ok r := by
  cases nps with
  | nil => exact absurd rfl hn
  | cons p l =>
    intro hh
    unfold impactsLoop at hh
    obtain ⟨v, -, hh⟩ := bind_eq_ok.1 hh
    obtain ⟨u, -, hh⟩ := bind_eq_ok.1 hh
    obtain ⟨w, hw, -⟩ := bind_eq_ok.1 hh
    cases hw

/-! ## An example -/

namespace CloneDemo
open MarkupDemo PruneDemo

/-- The model of `MarkupDemo`, with two samples in one channel, as objects. -/
noncomputable def heap : Heap where
  arrs i := if i = 0 then [1, 2] else [5, 6]
  imps i := if i = 2 then [("np", .common [(.num 1, 0), (.num (-1), -0)])] else [("np", .common [(.num 1, 1/10), (.num (-1), -1/10)])]
  smps i := if i = 4 then ⟨"sig", .expr "k", 1, 0, 2⟩ else ⟨"bkg", .number 2, 2, 1, 3⟩
  chns _ := ⟨"c", cls, [4, 5]⟩
  mdls _ := { name := some "demo", description := none, pois := [7], aux := [8], nps := [9], exprs := [("k", .linear 0 [("mu", 2)])],
              chans := [6], flags := {} }
  pois _ := { name := some "mu", min_value := some 0, max_value := some 10, initial_value := some 1 }
  auxs _ := { name := some "aux" }
  nps _ := { name := some "np", nominal_value := some 0, variation := some 1, constraint := some 1, aux_obs := some "aux" }
  next := 11

theorem obj_eq : Alias.obj heap 10 = MarkupDemo.obj cls := by
  simp [Alias.obj, heap, Alias.readChan, Alias.readSample, MarkupDemo.obj]

theorem cloneable : Cloneable heap 10 := by
  refine ⟨⟨fun x hx => ?_, fun x hx => ?_⟩, ?_, ?_, ?_⟩
  · simp only [Alias.foot, heap, Set.mem_setOf_eq, List.mem_singleton, exists_eq_left, List.mem_cons, List.not_mem_nil, or_false] at hx ⊢
    rcases hx with rfl | rfl | ⟨a, rfl | rfl, hx⟩
    · norm_num
    · norm_num
    · simp at hx; omega
    · simp at hx; omega
  · simp only [Alias.params, heap, Set.mem_setOf_eq, List.mem_singleton] at hx ⊢
    omega
  · rw [obj_eq]
    have h1 := MarkupDemo.init cls rfl
    have h2 := MarkupDemo.storable cls rfl ⟨_, rfl⟩
    obtain ⟨k1, -, A, ne, hA, hne⟩ := initModel_ok h1
    exact initModel_intro (setUp_raw MarkupDemo.lawful k1 (loaded_of_storable h2)).1 rfl hA hne
  · rw [obj_eq]; simp [MarkupDemo.obj]
  · rw [obj_eq]; simp [MarkupDemo.obj, cls, ChClass.isGauss]

theorem noAlias : NoAlias heap 10 := ⟨by simp [samplesOf, heap], by simp [samplesOf, heap]⟩

theorem byName : ByName (Alias.obj heap 10) := by rw [obj_eq]; exact ⟨by simp [MarkupDemo.obj], by simp [MarkupDemo.obj]⟩

end CloneDemo

/-- The hypotheses of the theorems above are met, and the clone can be pruned: the model keeps its NP, the clone has none. -/
example : ∃ (h : Heap) (m : ℕ) (h' : Heap) (m' : ℕ), Cloneable h m ∧ NoAlias h m ∧ ByName (Alias.obj h m) ∧
    Alias.removeNps (reOf PruneDemo.lib) [("np", some 1)] true h m = .ok (h', m') ∧ (Alias.obj h' m).doc.nps.length = 1 ∧
    (Alias.obj h' m').doc.nps = [] ∧ (Alias.obj h' m').doc.name = some "demo_pruned" := by
  have e : Alias.obj CloneDemo.heap 10 = PruneDemo.objOf true := by
    rw [CloneDemo.obj_eq]; rfl
  obtain ⟨-, -, A, ne, hA, -⟩ := initModel_ok (MarkupDemo.init PruneDemo.cls rfl)
  obtain ⟨y1, y2, hr, -⟩ := PruneDemo.removed A true (some 1)
  rw [← e] at hr
  have hA' : (Alias.obj CloneDemo.heap 10).mdl.setInternal = .ok A := by rw [CloneDemo.obj_eq]; exact hA
  obtain ⟨h1, k1, k2, -⟩ := c83_remove_in_place CloneDemo.cloneable.alloc CloneDemo.noAlias CloneDemo.byName hA' hr
  obtain ⟨h', m', j1, j2, j3⟩ := c83_remove_alike CloneDemo.cloneable CloneDemo.noAlias CloneDemo.byName (name := "demo")
    (by rw [CloneDemo.obj_eq]; rfl) (by rw [CloneDemo.obj_eq]; rfl) k1
  refine ⟨_, _, h', m', CloneDemo.cloneable, CloneDemo.noAlias, CloneDemo.byName, j1, ?_, ?_, ?_⟩
  · rw [j2, CloneDemo.obj_eq]; rfl
  · rw [j3, k2]; rfl
  · rw [j3]; rfl

end Verif.Props
