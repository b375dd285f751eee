import Verif.Spec.Clone
import Verif.Lemmas.PruneSteps
/-! Helper lemmas on the heap of model objects. -/
namespace Verif.Alias
open Markup

theorem Same.refl (h : Heap) (x : ℕ) : Same h h x := ⟨rfl, rfl, rfl, rfl, rfl⟩

theorem Same.trans {h h' h'' : Heap} {x : ℕ} (a : Same h h' x) (b : Same h' h'' x) : Same h h'' x :=
  ⟨b.arr.trans a.arr, b.imp.trans a.imp, b.smp.trans a.smp, b.chn.trans a.chn, b.mdl.trans a.mdl⟩

theorem readSample_same {h h' : Heap} {a : ℕ} (h1 : Same h h' a) (h2 : Same h h' (h.smps a).yields)
    (h3 : Same h h' (h.smps a).impacts) : readSample h' a = readSample h a := by
  unfold readSample
  rw [h1.smp, h2.arr, h3.imp]

theorem foot_same {h h' : Heap} {m : ℕ} (hs : ∀ x ∈ foot h m, Same h h' x) : foot h' m = foot h m := by
  have e1 : (h'.mdls m).chans = (h.mdls m).chans := by rw [(hs m (Or.inl rfl)).mdl]
  have e2 : ∀ c ∈ (h.mdls m).chans, (h'.chns c).samples = (h.chns c).samples := fun c hc => by
    rw [(hs c (Or.inr (Or.inl hc))).chn]
  have e3 : ∀ c ∈ (h.mdls m).chans, ∀ a ∈ (h.chns c).samples, h'.smps a = h.smps a := fun c hc a ha =>
    (hs a (Or.inr (Or.inr ⟨c, hc, a, ha, Or.inl rfl⟩))).smp
  ext x
  unfold foot
  rw [Set.mem_setOf_eq, Set.mem_setOf_eq, e1]
  refine or_congr Iff.rfl (or_congr Iff.rfl ⟨?_, ?_⟩)
  · rintro ⟨c, hc, a, ha, hx⟩
    rw [e2 c hc] at ha
    rw [e3 c hc a ha] at hx
    exact ⟨c, hc, a, ha, hx⟩
  · rintro ⟨c, hc, a, ha, hx⟩
    rw [← e3 c hc a ha] at hx
    rw [← e2 c hc] at ha
    exact ⟨c, hc, a, ha, hx⟩

theorem obj_same {h h' : Heap} {m : ℕ} (hs : ∀ x ∈ foot h m, Same h h' x)
    (hp : ∀ x ∈ params h m, h'.pois x = h.pois x ∧ h'.auxs x = h.auxs x ∧ h'.nps x = h.nps x) : obj h' m = obj h m := by
  have e1 : h'.mdls m = h.mdls m := (hs m (Or.inl rfl)).mdl
  have ep : ∀ x ∈ (h.mdls m).pois, h'.pois x = h.pois x := fun x hx => (hp x (Or.inl hx)).1
  have ea : ∀ x ∈ (h.mdls m).aux, h'.auxs x = h.auxs x := fun x hx => (hp x (Or.inr (Or.inl hx))).2.1
  have en : ∀ x ∈ (h.mdls m).nps, h'.nps x = h.nps x := fun x hx => (hp x (Or.inr (Or.inr hx))).2.2
  have ec : ∀ c ∈ (h.mdls m).chans, readChan h' c = readChan h c := by
    intro c hc
    unfold readChan
    rw [(hs c (Or.inr (Or.inl hc))).chn]
    congr 1
    refine List.map_congr_left fun a ha => ?_
    exact readSample_same (hs a (Or.inr (Or.inr ⟨c, hc, a, ha, Or.inl rfl⟩)))
      (hs _ (Or.inr (Or.inr ⟨c, hc, a, ha, Or.inr (Or.inl rfl)⟩))) (hs _ (Or.inr (Or.inr ⟨c, hc, a, ha, Or.inr (Or.inr rfl)⟩)))
  unfold obj
  rw [e1, List.map_congr_left ep, List.map_congr_left ea, List.map_congr_left en, List.map_congr_left ec]

/-- New objects only. -/
structure Ext (h h' : Heap) : Prop where
  next : h.next ≤ h'.next
  same : ∀ x < h.next, Same h h' x
  pois : h'.pois = h.pois
  auxs : h'.auxs = h.auxs
  nps : h'.nps = h.nps

theorem Ext.refl (h : Heap) : Ext h h := ⟨le_refl _, fun x _ => Same.refl h x, rfl, rfl, rfl⟩

theorem Ext.trans {h h' h'' : Heap} (a : Ext h h') (b : Ext h' h'') : Ext h h'' :=
  ⟨a.next.trans b.next, fun x hx => (a.same x hx).trans (b.same x (lt_of_lt_of_le hx a.next)), b.pois.trans a.pois,
    b.auxs.trans a.auxs, b.nps.trans a.nps⟩

theorem Ext.obj {h h' : Heap} (e : Ext h h') {m : ℕ} (hm : Allocated h m) : obj h' m = obj h m :=
  obj_same (fun x hx => e.same x (hm.foot x hx)) fun x _ => ⟨by rw [e.pois], by rw [e.auxs], by rw [e.nps]⟩

/-- The sample and its parts exist. -/
structure AllocS (h : Heap) (a : ℕ) : Prop where
  self : a < h.next
  yields : (h.smps a).yields < h.next
  impacts : (h.smps a).impacts < h.next

theorem Ext.readSample {h h' : Heap} (e : Ext h h') {a : ℕ} (ha : AllocS h a) : readSample h' a = readSample h a :=
  readSample_same (e.same a ha.self) (e.same _ ha.yields) (e.same _ ha.impacts)

theorem Ext.allocS {h h' : Heap} (e : Ext h h') {a : ℕ} (ha : AllocS h a) : AllocS h' a := by
  have := (e.same a ha.self).smp
  exact ⟨lt_of_lt_of_le ha.self e.next, by rw [this]; exact lt_of_lt_of_le ha.yields e.next,
    by rw [this]; exact lt_of_lt_of_le ha.impacts e.next⟩

/-- A sample made between `h` and `h'`. -/
structure NewS (lo hi : ℕ) (h' : Heap) (b : ℕ) : Prop where
  glo : lo ≤ b
  ghi : b < hi
  ylo : lo ≤ (h'.smps b).yields
  yhi : (h'.smps b).yields < hi
  ilo : lo ≤ (h'.smps b).impacts
  ihi : (h'.smps b).impacts < hi

theorem NewS.weaken {lo hi lo' hi' : ℕ} {h h' : Heap} {b : ℕ} (n : NewS lo hi h b) (e : h'.smps b = h.smps b) (h1 : lo' ≤ lo)
    (h2 : hi ≤ hi') : NewS lo' hi' h' b :=
  ⟨h1.trans n.glo, lt_of_lt_of_le n.ghi h2, by rw [e]; exact h1.trans n.ylo, by rw [e]; exact lt_of_lt_of_le n.yhi h2,
    by rw [e]; exact h1.trans n.ilo, by rw [e]; exact lt_of_lt_of_le n.ihi h2⟩

theorem cloneSample_spec (h : Heap) (a : ℕ) (ha : AllocS h a) :
    Ext h (cloneSample h a).1 ∧ (cloneSample h a).1.chns = h.chns ∧ (cloneSample h a).1.mdls = h.mdls ∧
    NewS h.next (cloneSample h a).1.next (cloneSample h a).1 (cloneSample h a).2 ∧
    Alias.readSample (cloneSample h a).1 (cloneSample h a).2 = Alias.readSample h a := by
  refine ⟨⟨by simp [cloneSample], fun x hx => ⟨?_, ?_, ?_, rfl, rfl⟩, rfl, rfl, rfl⟩, rfl, rfl, ?_, ?_⟩
  · simp only [cloneSample]; rw [Function.update_of_ne (by omega)]
  · simp only [cloneSample]; rw [Function.update_of_ne (by omega)]
  · simp only [cloneSample]; rw [Function.update_of_ne (by omega)]
  · constructor <;> simp [cloneSample]
  · simp [Alias.readSample, cloneSample]

theorem cloneSamples_spec : ∀ (l : List ℕ) (h : Heap), (∀ a ∈ l, AllocS h a) →
    Ext h (cloneSamples h l).1 ∧ (cloneSamples h l).1.chns = h.chns ∧ (cloneSamples h l).1.mdls = h.mdls ∧
    (∀ b ∈ (cloneSamples h l).2, NewS h.next (cloneSamples h l).1.next (cloneSamples h l).1 b) ∧
    (cloneSamples h l).2.map (Alias.readSample (cloneSamples h l).1) = l.map (Alias.readSample h) ∧
    (cloneSamples h l).2.Nodup ∧ ((cloneSamples h l).2.map fun b => ((cloneSamples h l).1.smps b).impacts).Nodup := by
  intro l
  induction l with
  | nil => intro h _; exact ⟨Ext.refl h, rfl, rfl, by simp [cloneSamples], rfl, by simp [cloneSamples], by simp [cloneSamples]⟩
  | cons a l ih =>
    intro h hl
    obtain ⟨e1, c1, m1, n1, r1⟩ := cloneSample_spec h a (hl a (by simp))
    have hl' : ∀ b ∈ l, AllocS (cloneSample h a).1 b := fun b hb => e1.allocS (hl b (by simp [hb]))
    obtain ⟨e2, c2, m2, n2, r2, d2, i2⟩ := ih (cloneSample h a).1 hl'
    simp only [cloneSamples]
    set r := cloneSample h a
    set q := cloneSamples r.1 l
    have hs := e2.same r.2 n1.ghi
    refine ⟨e1.trans e2, c2.trans c1, m2.trans m1, ?_, ?_, ?_, ?_⟩
    · intro b hb
      rcases List.mem_cons.1 hb with rfl | hb
      · exact n1.weaken hs.smp (le_refl _) e2.next
      · exact (n2 b hb).weaken rfl e1.next (le_refl _)
    · rw [List.map_cons, List.map_cons, r2, e2.readSample ⟨n1.ghi, n1.yhi, n1.ihi⟩, r1]
      congr 1
      exact List.map_congr_left fun b hb => e1.readSample (hl b (by simp [hb]))
    · refine List.nodup_cons.2 ⟨fun hb => ?_, d2⟩
      have := (n2 _ hb).glo
      have := n1.ghi
      omega
    · rw [List.map_cons]
      refine List.nodup_cons.2 ⟨fun hb => ?_, i2⟩
      obtain ⟨b, hb, he⟩ := List.mem_map.1 hb
      have h1 := (n2 b hb).ilo
      rw [he, hs.smp] at h1
      have := n1.ihi
      omega

/-- The channel and its samples exist. -/
structure AllocC (h : Heap) (c : ℕ) : Prop where
  self : c < h.next
  samples : ∀ a ∈ (h.chns c).samples, AllocS h a

theorem Ext.readChan {h h' : Heap} (e : Ext h h') {c : ℕ} (hc : AllocC h c) : readChan h' c = readChan h c := by
  unfold Alias.readChan
  rw [(e.same c hc.self).chn]
  congr 1
  exact List.map_congr_left fun a ha => e.readSample (hc.samples a ha)

theorem Ext.allocC {h h' : Heap} (e : Ext h h') {c : ℕ} (hc : AllocC h c) : AllocC h' c := by
  have := (e.same c hc.self).chn
  exact ⟨lt_of_lt_of_le hc.self e.next, by rw [this]; exact fun a ha => e.allocS (hc.samples a ha)⟩

/-- A channel made between `h` and `h'`, with its samples. -/
structure NewC (lo hi : ℕ) (h' : Heap) (c : ℕ) : Prop where
  glo : lo ≤ c
  ghi : c < hi
  samples : ∀ a ∈ (h'.chns c).samples, NewS lo hi h' a
  nodup : (h'.chns c).samples.Nodup
  impacts : ((h'.chns c).samples.map fun a => (h'.smps a).impacts).Nodup

theorem cloneChan_spec (h : Heap) (c : ℕ) (hc : AllocC h c) (r : Heap × ℕ) (hr : cloneChan h c = .ok r) :
    Ext h r.1 ∧ r.1.mdls = h.mdls ∧ NewC h.next r.1.next r.1 r.2 ∧ Alias.readChan r.1 r.2 = Alias.readChan h c := by
  unfold cloneChan at hr
  split at hr
  · cases hr
  have := Except.ok.inj (ε := PyErr) hr
  subst this
  obtain ⟨e, c1, m1, n1, r1, d1, i1⟩ := cloneSamples_spec (h.chns c).samples h hc.samples
  set q := cloneSamples h (h.chns c).samples
  refine ⟨⟨e.next.trans (by simp), fun x hx => ?_, e.pois, e.auxs, e.nps⟩, m1, ⟨e.next, by simp, ?_, ?_, ?_⟩, ?_⟩
  · have hs := e.same x hx
    refine ⟨hs.arr, hs.imp, hs.smp, ?_, hs.mdl⟩
    dsimp only
    rw [Function.update_of_ne (by have := e.next; omega)]
    exact hs.chn
  · dsimp only
    rw [Function.update_self]
    exact fun a ha => (n1 a ha).weaken rfl (le_refl _) (by simp)
  · dsimp only; rw [Function.update_self]; exact d1
  · dsimp only; rw [Function.update_self]; exact i1
  · unfold Alias.readChan
    dsimp only
    rw [Function.update_self]
    dsimp only
    rw [← r1]
    rfl

theorem NewC.weaken {lo hi lo' hi' : ℕ} {h h' : Heap} {c : ℕ} (n : NewC lo hi h c) (e : ∀ x < hi, Same h h' x) (h1 : lo' ≤ lo)
    (h2 : hi ≤ hi') : NewC lo' hi' h' c := by
  have ec : h'.chns c = h.chns c := (e c n.ghi).chn
  have es : ∀ a ∈ (h.chns c).samples, h'.smps a = h.smps a := fun a ha => (e a (n.samples a ha).ghi).smp
  refine ⟨h1.trans n.glo, lt_of_lt_of_le n.ghi h2, ?_, ?_, ?_⟩
  · rw [ec]; exact fun a ha => (n.samples a ha).weaken (es a ha) h1 h2
  · rw [ec]; exact n.nodup
  · rw [ec, List.map_congr_left (fun a ha => by rw [es a ha])]; exact n.impacts

theorem cloneChans_spec : ∀ (l : List ℕ) (h : Heap), (∀ c ∈ l, AllocC h c) → ∀ r, cloneChans h l = .ok r →
    Ext h r.1 ∧ r.1.mdls = h.mdls ∧ (∀ c ∈ r.2, NewC h.next r.1.next r.1 c) ∧
    r.2.map (Alias.readChan r.1) = l.map (Alias.readChan h) ∧
    (r.2.flatMap fun c => (r.1.chns c).samples).Nodup ∧
    ((r.2.flatMap fun c => (r.1.chns c).samples).map fun a => (r.1.smps a).impacts).Nodup := by
  intro l
  induction l with
  | nil =>
    intro h _ r hr
    have := Except.ok.inj (ε := PyErr) hr
    subst this
    exact ⟨Ext.refl h, rfl, by simp, rfl, by simp, by simp⟩
  | cons c l ih =>
    intro h hl r hr
    simp only [cloneChans] at hr
    obtain ⟨q, hq, h1⟩ := bind_eq_ok.1 hr
    obtain ⟨t, ht, h2⟩ := bind_eq_ok.1 h1
    have := Except.ok.inj (ε := PyErr) h2
    subst this
    obtain ⟨e1, m1, n1, r1⟩ := cloneChan_spec h c (hl c (by simp)) q hq
    obtain ⟨e2, m2, n2, r2, d2, i2⟩ := ih q.1 (fun b hb => e1.allocC (hl b (by simp [hb]))) t ht
    have n1' : NewC h.next q.1.next t.1 q.2 := n1.weaken e2.same (le_refl _) (le_refl _)
    refine ⟨e1.trans e2, m2.trans m1, ?_, ?_, ?_, ?_⟩
    · intro b hb
      rcases List.mem_cons.1 hb with rfl | hb
      · exact n1.weaken e2.same (le_refl _) e2.next
      · exact (n2 b hb).weaken (fun x _ => Same.refl _ x) e1.next (le_refl _)
    · dsimp only
      rw [List.map_cons, List.map_cons, r2, e2.readChan ⟨n1.ghi, fun a ha => ⟨(n1.samples a ha).ghi, (n1.samples a ha).yhi,
        (n1.samples a ha).ihi⟩⟩, r1]
      congr 1
      exact List.map_congr_left fun b hb => e1.readChan (hl b (by simp [hb]))
    · dsimp only
      rw [List.flatMap_cons, List.nodup_append]
      refine ⟨n1'.nodup, d2, fun a ha b hb hab => ?_⟩
      obtain ⟨c', hc', hb'⟩ := List.mem_flatMap.1 hb
      have h1 := (n1'.samples a ha).ghi
      have h2 := ((n2 c' hc').samples b hb').glo
      omega
    · dsimp only
      rw [List.flatMap_cons, List.map_append, List.nodup_append]
      refine ⟨n1'.impacts, i2, fun x hx y hy hxy => ?_⟩
      obtain ⟨a, ha, rfl⟩ := List.mem_map.1 hx
      obtain ⟨b, hb, rfl⟩ := List.mem_map.1 hy
      obtain ⟨c', hc', hb'⟩ := List.mem_flatMap.1 hb
      have h1 := (n1'.samples a ha).ihi
      have h2 := ((n2 c' hc').samples b hb').ilo
      omega

/-- When the channels can be cloned. -/
theorem cloneChans_ok : ∀ (l : List ℕ) (h : Heap), (∀ c ∈ l, AllocC h c) →
    (∀ c ∈ l, (h.chns c).cls.isGauss = false ∨ (h.chns c).samples = []) → ∃ r, cloneChans h l = .ok r := by
  intro l
  induction l with
  | nil => intro h _ _; exact ⟨_, rfl⟩
  | cons c l ih =>
    intro h hl hg
    obtain ⟨q, hq⟩ : ∃ q, cloneChan h c = .ok q := by
      unfold cloneChan
      rw [if_neg]
      · exact ⟨_, rfl⟩
      · rintro ⟨g1, g2⟩
        rcases hg c (by simp) with h3 | h3
        · rw [g1] at h3; cases h3
        · exact g2 h3
    obtain ⟨e1, _⟩ := cloneChan_spec h c (hl c (by simp)) q hq
    obtain ⟨t, ht⟩ := ih q.1 (fun b hb => e1.allocC (hl b (by simp [hb]))) (fun b hb => by
      rw [(e1.same b (hl b (by simp [hb])).self).chn]
      exact hg b (by simp [hb]))
    exact ⟨(t.1, q.2 :: t.2), by simp only [cloneChans, hq, bind_ok, ht, pure_ok]⟩


/-! ## Setting up again -/

theorem zip_read (h : Heap) (l : List ℕ) : ∀ e ∈ l.zip (l.map (Alias.readSample h)), e.2 = Alias.readSample h e.1 := by
  induction l with
  | nil => simp
  | cons a l ih => intro e he; rcases List.mem_cons.1 he with rfl | he; exacts [rfl, ih e he]

theorem pairs_obj (h : Heap) (m : ℕ) : ∀ e ∈ pairs h m (Alias.obj h m).doc.channels, e.2 = Alias.readSample h e.1 := by
  intro e he
  unfold pairs at he
  obtain ⟨cd, hcd, he2⟩ := List.mem_flatMap.1 he
  have : cd.2 = Alias.readChan h cd.1 := by
    clear he2 he e
    simp only [Alias.obj] at hcd
    generalize (h.mdls m).chans = l at hcd
    induction l with
    | nil => simp at hcd
    | cons a l ih => rcases List.mem_cons.1 hcd with rfl | hcd; exacts [rfl, ih hcd]
  rw [this] at he2
  exact zip_read h _ e he2

theorem putImpacts_same (h : Heap) : ∀ (L : List (ℕ × Sample)), (∀ e ∈ L, e.2 = Alias.readSample h e.1) → L.foldl putImpacts h = h := by
  intro L
  induction L with
  | nil => intro _; rfl
  | cons e L ih =>
    intro hl
    have : putImpacts h e = h := by
      unfold putImpacts
      rw [hl e (by simp)]
      simp [Alias.readSample]
    rw [List.foldl_cons, this]
    exact ih fun x hx => hl x (by simp [hx])

theorem setInternalVars_same {h : Heap} {m : ℕ} (hs : IsSetUp (Alias.obj h m)) : setInternalVars h m = .ok h := by
  unfold setInternalVars
  rw [hs, bind_ok, putImpacts_same h _ (pairs_obj h m)]
  rfl

/-- The set-up does not depend on the name and on the cutoff. -/
theorem IsSetUp.rename {o : Obj} (h : IsSetUp o) (name : Option String) (r : ℝ) :
    IsSetUp ⟨{ o.doc with name := name }, { o.flags with cutoff := r }⟩ := by
  obtain ⟨h1, -, A, ne, hA, hne⟩ := Props.initModel_ok h
  unfold IsSetUp
  have h2 : setUp (rawDoc { o.doc with name := name }) = .ok { o.doc with name := name } := by
    unfold setUp at h1 ⊢
    simp only [bind_eq_ok] at h1
    obtain ⟨pois, hpois, nps, hnps, vals, hvals, chans, hch, h1⟩ := h1
    have h1 := Except.ok.inj (ε := PyErr) h1
    have e : o.doc.channels = chans := by rw [← h1]
    simp only [rawDoc] at hpois hnps hvals hch ⊢
    subst e
    simp only [hpois, hnps, hvals, hch, bind_ok, pure_ok]
  have h3 : ∃ ne', (⟨{ o.doc with name := name }, { o.flags with cutoff := r }⟩ : Obj).mdl.nExp A o.mdl.poiInit 0 = .ok ne' := by
    unfold Mdl.nExp at hne ⊢
    obtain ⟨vals, hv, hne⟩ := bind_eq_ok.1 hne
    obtain ⟨rows, hr, -⟩ := bind_eq_ok.1 hne
    exact ⟨fun s b => (rows.getD s []).getD b 0 *
        (⟨{ o.doc with name := name }, { o.flags with cutoff := r }⟩ : Obj).mdl.cutKExp A 0 s b,
      bind_eq_ok.2 ⟨vals, hv, bind_eq_ok.2 ⟨rows, hr, rfl⟩⟩⟩
  obtain ⟨ne', h3⟩ := h3
  exact Props.initModel_intro h2 rfl (A := A) hA h3

/-! ## Pruning in place -/

theorem putSample_fold : ∀ (L : List (ℕ × Sample)) (h : Heap),
    (L.foldl putSample h).next = h.next + L.length ∧ (L.foldl putSample h).chns = h.chns ∧
    (L.foldl putSample h).mdls = h.mdls ∧ (L.foldl putSample h).pois = h.pois ∧ (L.foldl putSample h).auxs = h.auxs ∧
    (L.foldl putSample h).nps = h.nps ∧
    (∀ x, x ∉ L.map Prod.fst → (L.foldl putSample h).smps x = h.smps x) ∧
    (∀ x, ((L.foldl putSample h).smps x).impacts = (h.smps x).impacts ∧ ((L.foldl putSample h).smps x).name = (h.smps x).name) ∧
    (∀ x < h.next, (L.foldl putSample h).arrs x = h.arrs x) ∧
    (∀ x, x ∉ L.map (fun e => (h.smps e.1).impacts) → (L.foldl putSample h).imps x = h.imps x) ∧
    (∀ x, ((L.foldl putSample h).smps x).yields = (h.smps x).yields ∨
      (h.next ≤ ((L.foldl putSample h).smps x).yields ∧ ((L.foldl putSample h).smps x).yields < h.next + L.length)) ∧
    ((L.map Prod.fst).Nodup → (L.map fun e => (h.smps e.1).impacts).Nodup → (∀ e ∈ L, e.2.name = (h.smps e.1).name) →
      ∀ e ∈ L, Alias.readSample (L.foldl putSample h) e.1 = e.2) := by
  intro L
  induction L with
  | nil => intro h; simp
  | cons e L ih =>
    intro h
    rw [List.foldl_cons]
    obtain ⟨a1, a2, a3, a4, a5, a6, a7, a8, a9, a10, a11, a12⟩ := ih (putSample h e)
    have si : ∀ x, ((putSample h e).smps x).impacts = (h.smps x).impacts ∧ ((putSample h e).smps x).name = (h.smps x).name := by
      intro x
      by_cases hx : x = e.1
      · subst hx; simp [putSample]
      · simp [putSample, Function.update_of_ne hx]
    have hi : (L.map fun e' => ((putSample h e).smps e'.1).impacts) = L.map fun e' => (h.smps e'.1).impacts :=
      List.map_congr_left fun x _ => (si x.1).1
    rw [hi] at a10 a12
    have en : (putSample h e).next = h.next + 1 := rfl
    rw [en] at a1 a9 a11
    generalize L.foldl putSample (putSample h e) = h' at a1 a2 a3 a4 a5 a6 a7 a8 a9 a10 a11 a12 ⊢
    refine ⟨by rw [a1, List.length_cons]; omega, a2, a3, a4, a5, a6, ?_, ?_, ?_, ?_, ?_, ?_⟩
    · intro x hx
      rw [List.map_cons, List.mem_cons, not_or] at hx
      rw [a7 x hx.2]
      simp [putSample, Function.update_of_ne hx.1]
    · exact fun x => ⟨(a8 x).1.trans (si x).1, (a8 x).2.trans (si x).2⟩
    · intro x hx
      rw [a9 x (by omega)]
      simp only [putSample]
      rw [Function.update_of_ne (by omega)]
    · intro x hx
      rw [List.map_cons, List.mem_cons, not_or] at hx
      rw [a10 x hx.2]
      simp only [putSample]
      rw [Function.update_of_ne hx.1]
    · intro x
      rw [List.length_cons]
      rcases a11 x with h1 | h1
      · rw [h1]
        by_cases hx : x = e.1
        · right; subst hx; simp [putSample]
        · left; simp [putSample, Function.update_of_ne hx]
      · right; omega
    · intro n1 n2 nm y hy
      rw [List.map_cons, List.nodup_cons] at n1 n2
      rcases List.mem_cons.1 hy with rfl | hy
      · unfold Alias.readSample
        rw [a7 _ n1.1]
        have e1 : (putSample h y).smps y.1 = { h.smps y.1 with norm := y.2.norm, nominal_norm := y.2.nominal_norm, yields := h.next } := by
          simp [putSample]
        rw [e1]
        dsimp only
        rw [a9 _ (by omega), a10 _ n2.1, ← nm y (by simp)]
        simp [putSample]
      · exact a12 n1.2 n2.2 (fun z hz => by rw [(si z.1).2]; exact nm z (by simp [hz])) y hy

/-- A part of a list with distinct names is found by names. -/
theorem filter_names {α : Type} (f : α → Option String) {l' l : List α} (hs : l'.Sublist l) (hn : (l.map f).Nodup) :
    l.filter (fun a => decide (f a ∈ l'.map f)) = l' := by
  induction hs with
  | slnil => rfl
  | @cons l' l a hs ih =>
    rw [List.map_cons, List.nodup_cons] at hn
    rw [List.filter_cons_of_neg, ih hn.2]
    intro h
    exact hn.1 ((hs.map f).subset (of_decide_eq_true h))
  | @cons_cons l' l a hs ih =>
    rw [List.map_cons, List.nodup_cons] at hn
    rw [List.filter_cons_of_pos (by simp)]
    congr 1
    refine (List.filter_congr fun x hx => ?_).trans (ih hn.2)
    have : f x ≠ f a := fun he => hn.1 (he ▸ List.mem_map_of_mem hx)
    simp [this]

theorem map_filter_names {α : Type} (g : ℕ → α) (f : α → Option String) {l' : List α} {l : List ℕ}
    (hs : l'.Sublist (l.map g)) (hn : ((l.map g).map f).Nodup) :
    (l.filter (fun a => decide (f (g a) ∈ l'.map f))).map g = l' := by
  have := filter_names f hs hn
  rw [List.filter_map] at this
  exact this

theorem pairs_fst (h : Heap) (m : ℕ) (D : List (ChanDoc Sample)) (hD : List.Forall₂ (fun c d => (h.chns c).samples.length =
    d.samples.length) (h.mdls m).chans D) : (pairs h m D).map Prod.fst = samplesOf h m := by
  unfold pairs samplesOf
  generalize (h.mdls m).chans = l at hD
  induction hD with
  | nil => rfl
  | @cons c d l D hc _ ih =>
    rw [List.zip_cons_cons, List.flatMap_cons, List.map_append, ih, List.flatMap_cons, List.map_fst_zip (le_of_eq hc)]

theorem pairs_mem (h : Heap) (m : ℕ) (D : List (ChanDoc Sample)) : ∀ e ∈ pairs h m D,
    ∃ c ∈ (h.mdls m).chans, e.1 ∈ (h.chns c).samples := by
  intro e he
  obtain ⟨cd, hcd, he2⟩ := List.mem_flatMap.1 he
  exact ⟨cd.1, (List.of_mem_zip hcd).1, (List.of_mem_zip he2).1⟩

/-- What `putRemoved` leaves alone. -/
theorem putRemoved_through (h : Heap) (m : ℕ) (o : Obj) (hm : Allocated h m) : Through h m (putRemoved h m o) := by
  obtain ⟨a1, a2, a3, a4, a5, a6, a7, a8, a9, a10, a11, -⟩ := putSample_fold (pairs h m o.doc.channels) h
  have hmem : ∀ e ∈ pairs h m o.doc.channels, e.1 ∈ foot h m ∧ (h.smps e.1).impacts ∈ foot h m := by
    intro e he
    obtain ⟨c, hc, ha⟩ := pairs_mem h m _ e he
    exact ⟨Or.inr (Or.inr ⟨c, hc, _, ha, Or.inl rfl⟩), Or.inr (Or.inr ⟨c, hc, _, ha, Or.inr (Or.inr rfl)⟩)⟩
  unfold putRemoved
  set h' := (pairs h m o.doc.channels).foldl putSample h
  refine ⟨by dsimp only; omega, fun x hx hf => ⟨a9 x hx, ?_, ?_, by dsimp only; rw [a2], ?_⟩, fun x _ => ?_, ?_, ?_⟩
  · refine a10 x fun hc => hf ?_
    obtain ⟨e, he, rfl⟩ := List.mem_map.1 hc
    exact (hmem e he).2
  · refine a7 x fun hc => hf ?_
    obtain ⟨e, he, rfl⟩ := List.mem_map.1 hc
    exact (hmem e he).1
  · dsimp only
    rw [Function.update_of_ne (fun hc => hf (Or.inl hc)), a3]
  · exact ⟨by dsimp only; rw [a4], by dsimp only; rw [a5], by dsimp only; rw [a6]⟩
  · intro x hx
    unfold foot at hx ⊢
    simp only [Set.mem_setOf_eq, Function.update_self] at hx ⊢
    rw [a3, a2] at hx
    rcases hx with hx | hx | ⟨c, hc, a, ha, hx⟩
    · exact Or.inl (Or.inl hx)
    · exact Or.inl (Or.inr (Or.inl hx))
    · rw [(a8 a).1] at hx
      rcases hx with hx | hx | hx
      · exact Or.inl (Or.inr (Or.inr ⟨c, hc, a, ha, Or.inl hx⟩))
      · rcases a11 a with h1 | h1
        · exact Or.inl (Or.inr (Or.inr ⟨c, hc, a, ha, Or.inr (Or.inl (hx.trans h1))⟩))
        · right; rw [hx, a1]; exact h1
      · exact Or.inl (Or.inr (Or.inr ⟨c, hc, a, ha, Or.inr (Or.inr hx)⟩))
  · intro x hx
    unfold params at hx ⊢
    simp only [Set.mem_setOf_eq, Function.update_self, List.mem_filter] at hx ⊢
    rw [a3] at hx
    rcases hx with hx | hx | hx
    · exact Or.inl hx
    · exact Or.inr (Or.inl hx.1)
    · exact Or.inr (Or.inr hx.1)

/-- `o` is the model `o₀` with fewer NPs and aux. observables, and other contents of its samples. -/
structure Reduced (o₀ o : Obj) : Prop where
  name : o.doc.name = o₀.doc.name
  description : o.doc.description = o₀.doc.description
  pois : o.doc.pois = o₀.doc.pois
  exprs : o.doc.exprs = o₀.doc.exprs
  flags : o.flags = o₀.flags
  nps : o.doc.nps.Sublist o₀.doc.nps
  aux : o.doc.aux.Sublist o₀.doc.aux
  chans : List.Forall₂ (fun c c' => c'.name = c.name ∧ c'.cls = c.cls ∧ c'.samples.map (·.name) = c.samples.map (·.name))
    o₀.doc.channels o.doc.channels

theorem zip_names (h : Heap) {l : List ℕ} {D : List Sample} (hn : D.map (·.name) = l.map fun a => (h.smps a).name) :
    ∀ e ∈ l.zip D, e.2.name = (h.smps e.1).name := by
  induction l generalizing D with
  | nil => simp
  | cons a l ih =>
    cases D with
    | nil => simp
    | cons d D =>
      simp only [List.map_cons, List.cons.injEq] at hn
      intro e he
      rcases List.mem_cons.1 he with rfl | he
      exacts [hn.1, ih hn.2 e he]

theorem map_of_zip {α β : Type} (f : α → β) {l : List α} {D : List β} (hl : l.length = D.length)
    (h : ∀ e ∈ l.zip D, f e.1 = e.2) : l.map f = D := by
  induction l generalizing D with
  | nil => cases D with
    | nil => rfl
    | cons _ _ => simp at hl
  | cons a l ih =>
    cases D with
    | nil => simp at hl
    | cons d D =>
      rw [List.map_cons, h (a, d) (by simp), ih (by simpa using hl) fun e he => h e (by simp [he])]

/-- What `putRemoved` leaves in the object is what it was given. -/
theorem putRemoved_obj (h : Heap) (m : ℕ) (o : Obj) (ha : NoAlias h m) (hn : ByName (Alias.obj h m))
    (hr : Reduced (Alias.obj h m) o) : Alias.obj (putRemoved h m o) m = o := by
  obtain ⟨a1, a2, a3, a4, a5, a6, a7, a8, a9, a10, a11, a12⟩ := putSample_fold (pairs h m o.doc.channels) h
  have hch : List.Forall₂ (fun c d => d.name = (h.chns c).name ∧ d.cls = (h.chns c).cls ∧
      d.samples.map (·.name) = (h.chns c).samples.map fun a => (h.smps a).name) (h.mdls m).chans o.doc.channels := by
    have := hr.chans
    simp only [Alias.obj] at this
    rw [List.forall₂_map_left_iff] at this
    refine this.imp fun c d hh => ⟨hh.1, hh.2.1, hh.2.2.trans ?_⟩
    simp [Alias.readChan, Alias.readSample]
  have hlen : List.Forall₂ (fun c d => (h.chns c).samples.length = d.samples.length) (h.mdls m).chans o.doc.channels :=
    hch.imp fun c d hh => by simpa using (congrArg List.length hh.2.2).symm
  have hf := pairs_fst h m o.doc.channels hlen
  have hi : ((pairs h m o.doc.channels).map fun e => (h.smps e.1).impacts) = (samplesOf h m).map fun a => (h.smps a).impacts := by
    rw [← hf, List.map_map]; rfl
  have hnm : ∀ e ∈ pairs h m o.doc.channels, e.2.name = (h.smps e.1).name := by
    intro e he
    obtain ⟨cd, hcd, he2⟩ := List.mem_flatMap.1 he
    have := (List.forall₂_iff_zip.1 hch).2 hcd
    exact zip_names h this.2.2 e he2
  have rd := a12 (by rw [hf]; exact ha.samples) (by rw [hi]; exact ha.impacts) hnm
  have hmem : ∀ cd ∈ (h.mdls m).chans.zip o.doc.channels, ∀ e ∈ (h.chns cd.1).samples.zip cd.2.samples,
      e ∈ pairs h m o.doc.channels := fun cd hcd e he => List.mem_flatMap.2 ⟨cd, hcd, he⟩
  obtain ⟨od, of⟩ := o
  unfold putRemoved Alias.obj
  dsimp only at *
  set h' := (pairs h m od.channels).foldl putSample h
  have hc' : (h.mdls m).chans.map (Alias.readChan h') = od.channels := by
    refine map_of_zip _ hch.length_eq fun cd hcd => ?_
    have h1 := (List.forall₂_iff_zip.1 hch).2 hcd
    have h2 := (List.forall₂_iff_zip.1 hlen).2 hcd
    have h3 : (h.chns cd.1).samples.map (Alias.readSample h') = cd.2.samples :=
      map_of_zip _ h2 fun e he => rd e (hmem cd hcd e he)
    obtain ⟨c, d⟩ := cd
    unfold Alias.readChan
    rw [a2]
    dsimp only at h1 h3 ⊢
    rw [h3, ← h1.1, ← h1.2.1]
  have hnp : ((h.mdls m).nps.filter (fun a => decide ((h.nps a).name ∈ od.nps.map (·.name)))).map h.nps = od.nps :=
    map_filter_names h.nps (·.name) hr.nps hn.nps
  have hax : ((h.mdls m).aux.filter (fun a => decide ((h.auxs a).name ∈ od.aux.map (·.name)))).map h.auxs = od.aux :=
    map_filter_names h.auxs (·.name) hr.aux hn.aux
  have e1 := hr.name
  have e2 := hr.description
  have e3 := hr.pois
  have e4 := hr.exprs
  have e5 := hr.flags
  simp only [Alias.obj] at e1 e2 e3 e4 e5
  simp only [Function.update_self, a3, a4, a5, a6, hnp, hax]
  have hc2 : (h.mdls m).chans.map (Alias.readChan { h' with
      mdls := Function.update h.mdls m { h.mdls m with
        aux := (h.mdls m).aux.filter (fun a => decide ((h.auxs a).name ∈ od.aux.map (·.name)))
        nps := (h.mdls m).nps.filter (fun a => decide ((h.nps a).name ∈ od.nps.map (·.name))) } }) = od.channels := hc'
  rw [← e1, ← e2, ← e3, ← e4, ← e5]
  congr 1
  obtain ⟨b1, b2, b3, b4, b5, b6, b7⟩ := od
  congr 1

theorem dropAll_name {n P : Nat} (m : Mdl n P) (l : List (Fin P)) (s : Sample) : (dropAll m l s).name = s.name := by
  unfold dropAll
  induction l generalizing s with
  | nil => rfl
  | cons p l ih =>
    rw [List.foldl_cons, ih]
    unfold Mdl.dropFromSample
    split <;> rfl

theorem setNpData_name {s : RawSample} {nps : List (NP ℝ)} {reals : Dict Expr} {vals : Dict ℝ} {fuel : Nat}
    {s' : Sample} (h : s.setNpData nps reals vals fuel = .ok s') : s'.name = s.name := by
  rw [setNpData_eq, bind_eq_ok] at h
  obtain ⟨im, -, h1⟩ := h
  have h2 := Except.ok.inj (ε := PyErr) h1
  subst h2
  rfl

/-- What `remove_nps` keeps. -/
theorem removeNps_reduced {A : Mdl.Arrays} {rx : String → String → Bool} {pv : Dict (Option ℝ)} {o o' : Obj}
    (h : Markup.removeNps A rx pv o = .ok o') : Reduced o o' := by
  obtain ⟨sels, aux', chans', hsel, he, haux, hnd, -, chans, hin, ne, vals, offs, hc⟩ := removeNps_mdl h
  obtain ⟨hs, -, -⟩ := Props.initModel_ok hin
  obtain ⟨-, -, -, -, -, -, -, vals', -, hc'⟩ := setUp_inv (f := o.flags) hs
  have hF := mapM_ok_iff.1 hc
  have hF' := mapM_ok_iff.1 hc'
  have hall : List.Forall₂ (fun c c' => c'.name = c.name ∧ c'.cls = c.cls ∧ c'.samples.map (·.name) = c.samples.map (·.name))
      o.doc.channels o'.doc.channels := by
    refine forall₂_through (Q := fun c c' => c'.name = c.name ∧ c'.cls = c.cls ∧ c'.samples.map (·.name) = c.samples.map (·.name)) ?_ hF hF'
    intro c d c' h1 h2
    obtain ⟨k1, k2, k3⟩ := refitDoc_inv h1
    obtain ⟨j1, j2, j3⟩ := setUpChannel_inv h2
    refine ⟨j1.trans k1, j2.trans k2, ?_⟩
    have e1 : d.samples.map (·.name) = c.samples.map (·.name) := by
      refine forall₂_names (k3.imp fun s r hh => ?_)
      rw [hh.1, dropAll_name]
    rw [← e1]
    exact forall₂_names (j3.imp fun s r hh => setNpData_name hh)
  subst he
  exact ⟨rfl, rfl, rfl, rfl, rfl, kept_sublist _ _, (popAux_fold haux).1, hall⟩

end Verif.Alias
