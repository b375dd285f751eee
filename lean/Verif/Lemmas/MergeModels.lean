import Verif.Model.MergeModels
import Verif.Lemmas.MarkupLoad
import Verif.Lemmas.Pieces
import Verif.Props.Markup
/-!
# Lemmas about `ModelMerger`
-/
namespace Verif
namespace Mdl
variable {n P : Nat}

/-- Width of the coefficient arrays. -/
theorem setInternal_nvar {m : Mdl n P} (hu : m.Uniform 1) {A : Arrays} (h : m.setInternal = .ok A) :
    A.buf.nvar = 1 := by
  unfold setInternal at h
  simp only at h
  by_cases h0 : (m.channels.filter (fun c => !c.gaussian) ++ m.channels.filter (fun c => c.gaussian)).map (·.name) ≠
      m.channels.map (·.name)
  · rw [if_pos h0] at h; cases h
  rw [if_neg h0] at h
  simp only [pure_ok, bind_ok] at h
  by_cases ha : m.use_asym_impacts = true
  · rw [if_pos ha] at h
    obtain ⟨buf, hbuf, h⟩ := bind_eq_ok.1 h
    obtain ⟨syms, _, h⟩ := bind_eq_ok.1 h
    have hA := Except.ok.inj (ε := PyErr) h
    have hbufA : A.buf = buf := by rw [← hA]
    rw [hbufA]
    have inv := bufInv_foldlM hu _ [] _ _ ⟨fun _ => rfl, fun h => absurd rfl h, fun q hq => by cases hq⟩
      (by
        intro q hq
        obtain ⟨p', _, hq⟩ := List.mem_flatMap.1 hq
        obtain ⟨s', hs', rfl⟩ := List.mem_map.1 hq
        exact List.mem_range.1 hs') hbuf
    rw [List.nil_append] at inv
    rcases eq_or_ne ((List.finRange P).flatMap fun p => (List.range m.maxSamples).map fun s => (p, s)) [] with e | e
    · rw [inv.1 e]
    · exact (inv.2.1 e).1
  · rw [if_neg ha] at h
    obtain ⟨syms, _, h⟩ := bind_eq_ok.1 h
    rw [← Except.ok.inj (ε := PyErr) h]

end Mdl

namespace MergeM
open Markup Mdl

/-! ### Concatenations -/

theorem foldl_max_ge (l : List Nat) (a : Nat) : a ≤ l.foldl max a ∧ ∀ x ∈ l, x ≤ l.foldl max a := by
  induction l generalizing a with
  | nil => simp
  | cons b l ih =>
    have := ih (max a b)
    refine ⟨le_trans (le_max_left a b) this.1, ?_⟩
    intro x hx
    rcases List.mem_cons.1 hx with rfl | hx
    · exact le_trans (le_max_right a x) this.1
    · exact this.2 x hx

/-- Sum of the numbers of bins. -/
def nbs (l : List NArr) : Nat := (l.map (·.nb)).sum

/-- Arrays with the same axes can be concatenated, and the entries are found behind the preceding bins. -/
theorem concatAll_ok {ns : Nat} {tail : List Nat} (l : List NArr) (hne : l ≠ [])
    (h : ∀ a ∈ l, a.ns = ns ∧ a.tail = tail) : ∃ r, concatAll l = .ok r ∧ r.ns = ns ∧ r.tail = tail ∧
      r.nb = nbs l ∧ ∀ p a q, l = p ++ a :: q → ∀ s b t, b < a.nb → r.val s (nbs p + b) t = a.val s b t := by
  induction l with
  | nil => exact absurd rfl hne
  | cons a l ih =>
    cases l with
    | nil =>
      refine ⟨a, rfl, (h a (by simp)).1, (h a (by simp)).2, by simp [nbs], ?_⟩
      intro p a' q hp s b t _
      cases p with
      | nil => simp at hp; simp [nbs, hp.1]
      | cons c p => simp at hp
    | cons b l =>
      obtain ⟨r, h1, h2, h3, h4, h5⟩ := ih (by simp) (fun c hc => h c (by simp [hc]))
      have ha := h a (by simp)
      refine ⟨⟨a.ns, a.nb + r.nb, a.tail, fun s i t => if i < a.nb then a.val s i t else r.val s (i - a.nb) t⟩,
        ?_, ha.1, ha.2, by simp [nbs, h4], ?_⟩
      · rw [concatAll, h1, bind_ok, NArr.concat, if_pos ⟨by rw [ha.1, h2], by rw [ha.2, h3]⟩]
      · intro p a' q hp s i t hi
        cases p with
        | nil => simp at hp; obtain ⟨rfl, rfl⟩ := hp; simp [nbs, hi]
        | cons c p =>
          simp only [List.cons_append, List.cons.injEq] at hp
          obtain ⟨rfl, hp⟩ := hp
          have e : nbs (a :: p) + i = a.nb + (nbs p + i) := by simp [nbs, add_assoc]
          simp only [e]
          rw [if_neg (by omega), ← h5 p a' q hp s i t hi]
          congr 1
          omega

/-! ### Channels -/

theorem putChannel_new {l : List (ChanDoc Sample)} {c : ChanDoc Sample} (h : ∀ a ∈ l, a.name ≠ c.name) :
    putChannel l c = l ++ [c] := by
  unfold putChannel
  rw [if_neg]
  simpa using h

/-- What the loops over channels do not touch. -/
structure Same (t t' : Live) : Prop where
  doc : t'.obj.doc = { t.obj.doc with channels := t'.obj.doc.channels }
  flags : t'.obj.flags = t.obj.flags
  maxSamples : t'.maxSamples = t.maxSamples
  keys : t'.sampleKeys = t.sampleKeys
  sym : t'.sym = t.sym
  pos : t'.pos = t.pos
  neg : t'.neg = t.neg
  nominal : t'.nominal = t.nominal

theorem Same.refl (t : Live) : Same t t := ⟨rfl, rfl, rfl, rfl, rfl, rfl, rfl, rfl⟩

theorem Same.trans {a b c : Live} (h : Same a b) (h' : Same b c) : Same a c where
  doc := by rw [h'.doc, h.doc]
  flags := h'.flags.trans h.flags
  maxSamples := h'.maxSamples.trans h.maxSamples
  keys := h'.keys.trans h.keys
  sym := h'.sym.trans h.sym
  pos := h'.pos.trans h.pos
  neg := h'.neg.trans h.neg
  nominal := h'.nominal.trans h.nominal

theorem addChannels_ok (md : Live) (l : List (ChanDoc Sample)) (t : Live)
    (hoff : ∀ c ∈ l, ∃ o, md.offsets.get? c.name = some o)
    (hn : ((t.obj.doc.channels ++ l).map (·.name)).Nodup) :
    ∃ t', l.foldlM (addChannel md) t = .ok t' ∧ Same t t' ∧ t'.obj.doc.channels = t.obj.doc.channels ++ l ∧
      t'.nbins = t.nbins + l.length * md.nbins := by
  induction l generalizing t with
  | nil => exact ⟨t, rfl, .refl t, by simp, by simp⟩
  | cons c l ih =>
    obtain ⟨o, ho⟩ := hoff c (by simp)
    have hnew : ∀ a ∈ t.obj.doc.channels, a.name ≠ c.name := by
      intro a ha e
      rw [List.map_append, List.nodup_append] at hn
      exact hn.2.2 a.name (List.mem_map.2 ⟨a, ha, rfl⟩) c.name (by simp) e
    let t1 : Live := { t.setChannels (putChannel t.obj.doc.channels c) with
      offsets := t.offsets.set c.name (o + t.nbins), nbins := t.nbins + md.nbins }
    have h1 : addChannel md t c = .ok t1 := by
      unfold addChannel
      rw [Dict.getItem_ok.2 ho, bind_ok]; rfl
    have hc1 : t1.obj.doc.channels = t.obj.doc.channels ++ [c] := putChannel_new hnew
    have hs1 : Same t t1 := ⟨rfl, rfl, rfl, rfl, rfl, rfl, rfl, rfl⟩
    obtain ⟨t', h2, h3, h4, h5⟩ := ih t1 (fun a ha => hoff a (by simp [ha])) (by rw [hc1]; simpa using hn)
    refine ⟨t', by rw [List.foldlM_cons, h1, bind_ok, h2], hs1.trans h3, by rw [h4, hc1]; simp, ?_⟩
    rw [h5, List.length_cons]
    show t.nbins + md.nbins + _ = _
    ring

theorem addModels_ok (ms : List Live) (t : Live)
    (hoff : ∀ md ∈ ms, ∀ c ∈ md.obj.doc.channels, ∃ o, md.offsets.get? c.name = some o)
    (hn : ((t.obj.doc.channels ++ ms.flatMap (·.obj.doc.channels)).map (·.name)).Nodup) :
    ∃ t', ms.foldlM addModel t = .ok t' ∧ Same t t' ∧
      t'.obj.doc.channels = t.obj.doc.channels ++ ms.flatMap (·.obj.doc.channels) ∧
      t'.nbins = t.nbins + (ms.map fun md => md.obj.doc.channels.length * md.nbins).sum := by
  induction ms generalizing t with
  | nil => exact ⟨t, rfl, .refl t, by simp, by simp⟩
  | cons md ms ih =>
    rw [List.flatMap_cons, ← List.append_assoc] at hn
    have hn1 : ((t.obj.doc.channels ++ md.obj.doc.channels).map (·.name)).Nodup := by
      rw [List.map_append] at hn
      exact (List.nodup_append.1 hn).1
    obtain ⟨t1, h1, h2, h3, h4⟩ := addChannels_ok md md.obj.doc.channels t (hoff md (by simp)) hn1
    obtain ⟨t', g1, g2, g3, g4⟩ := ih t1 (fun a ha => hoff a (by simp [ha])) (by rw [h3]; exact hn)
    refine ⟨t', by rw [List.foldlM_cons, addModel, h1, bind_ok, g1], h2.trans g2, ?_, ?_⟩
    · rw [g3, h3, List.flatMap_cons, List.append_assoc]
    · rw [g4, h4]; simp; ring

/-- An array of a model has the expected axes. -/
def HasArr (f : Live → Option NArr) (tail : List Nat) (md : Live) : Prop :=
  ∃ a, f md = some a ∧ a.ns = md.maxSamples ∧ a.tail = tail

theorem joined_ok {f : Live → Option NArr} {tail : List Nat} {all : List Live} (hne : all ≠ []) {ms : Nat}
    (hms : ∀ md ∈ all, md.maxSamples ≤ ms) (h : ∀ md ∈ all, HasArr f tail md) :
    ∃ r, joined ms f all = .ok r ∧ r.ns = ms ∧ r.tail = tail ∧
      r.nb = (all.map fun md => (f md).elim 0 (·.nb)).sum ∧
      ∀ p md q a, all = p ++ md :: q → f md = some a → ∀ s b t, b < a.nb →
        r.val s ((p.map fun md => (f md).elim 0 (·.nb)).sum + b) t = if s < a.ns then a.val s b t else 0 := by
  classical
  let g : Live → NArr := fun md => ((f md).getD ⟨0, 0, [], fun _ _ _ => 0⟩).pad (ms - md.maxSamples)
  have h1 : all.mapM (fun md => do return (← attr (f md)).pad (ms - md.maxSamples)) =
      (.ok (all.map g) : Except PyErr (List NArr)) := by
    refine mapM_map_ok (g := g) fun md hmd => ?_
    obtain ⟨a, ha, -⟩ := h md hmd
    simp only [ha, attr, bind_ok, g, Option.getD_some]; rfl
  have hg : ∀ l : List Live, (∀ md ∈ l, md ∈ all) → nbs (l.map g) = (l.map fun md => (f md).elim 0 (·.nb)).sum := by
    intro l hl
    unfold nbs
    rw [List.map_map]
    congr 1
    refine List.map_congr_left fun md hmd => ?_
    obtain ⟨a, ha, -⟩ := h md (hl md hmd)
    simp [g, ha, NArr.pad]
  obtain ⟨r, h2, h3, h4, h5, h6⟩ := concatAll_ok (ns := ms) (tail := tail) (all.map g) (by simpa using hne) (by
    intro a ha
    obtain ⟨md, hmd, rfl⟩ := List.mem_map.1 ha
    obtain ⟨a, ha, e1, e2⟩ := h md hmd
    have := hms md hmd
    simp only [g, ha, Option.getD_some, NArr.pad]
    exact ⟨by omega, e2⟩)
  refine ⟨r, by unfold joined; rw [h1, bind_ok, h2], h3, h4, ?_, ?_⟩
  · rw [h5, hg all fun _ h => h]
  · intro p md q a hall hfa s b t hb
    have hmem : ∀ x ∈ p, x ∈ all := fun x hx => by rw [hall]; simp [hx]
    have := h6 (p.map g) (g md) (q.map g) (by rw [hall]; simp) s b t (by simpa [g, hfa, NArr.pad] using hb)
    rw [hg p hmem] at this
    rw [this]
    simp [g, hfa, NArr.pad]

/-! ### Loaded models -/

/-- A model as the merge needs it: set up, with channels, impacts at ±1. -/
structure Usual (o : Obj) : Prop where
  channels : o.doc.channels ≠ []
  distinct : (o.doc.channels.map (·.name)).Nodup
  default : o.flags = {}
  std : ∀ c ∈ o.doc.channels, 0 < c.cls.nbins ∧ ∀ s ∈ c.samples, s.Std c.cls.nbins

theorem Usual.std' {o : Obj} (h : Usual o) : ∀ ch ∈ o.mdl.channels, 0 < ch.nbins ∧ ∀ s ∈ ch.samples, s.Std ch.nbins := by
  intro ch hc
  obtain ⟨c, hc', rfl⟩ := List.mem_map.1 hc
  exact h.std c hc'

theorem Usual.names {o : Obj} (h : Usual o) : (o.mdl.channels.map (·.name)).Nodup := by
  have : o.mdl.channels.map (·.name) = o.doc.channels.map (·.name) := by
    simp [Obj.mdl, toChannel, Function.comp_def]
  rw [this]; exact h.distinct

theorem live_ok {o : Obj} (h : Usual o) {A : Arrays} (hA : o.mdl.setInternal = .ok A) :
    ∃ t, live o = .ok t ∧ t.obj = o ∧ t.nbins = o.mdl.nbins ∧ t.maxSamples = o.mdl.maxSamples ∧
      t.offsets = o.mdl.offsets ∧ t.sampleKeys = keysOf o.doc.channels ∧
      HasArr (·.sym) [o.doc.nps.length] t ∧ HasArr (·.pos) [o.doc.nps.length, 1] t ∧
      HasArr (·.neg) [o.doc.nps.length, 1] t ∧ HasArr (·.nominal) [] t ∧
      ∀ c ∈ o.doc.channels, ∃ k, t.offsets.get? c.name = some k := by
  have hu : o.mdl.Uniform 1 := uniform_of_std (by simp [Obj.mdl, h.default]) h.std'
  obtain ⟨noms, hnom⟩ : ∃ noms, o.mdl.stackRows (fun s => .ok s.nominal_yields) = .ok noms :=
    stackRows_ok' _ _ fun ch hc smp hs => ⟨_, rfl, ((h.std' ch hc).2 smp hs).wellShaped.1⟩
  have hfl : o.flags.use_asym_impacts = true := by rw [h.default]
  refine ⟨_, by unfold live; rw [hA, bind_ok]; dsimp only; rw [hnom, bind_ok]; rfl, rfl, rfl, rfl, rfl, rfl, ?_, ?_, ?_, ?_, ?_⟩
  · exact ⟨_, if_neg h.channels, rfl, rfl⟩
  · exact ⟨_, by dsimp only; rw [if_pos hfl, if_neg h.channels], rfl, by rw [setInternal_nvar hu hA]⟩
  · exact ⟨_, by dsimp only; rw [if_pos hfl, if_neg h.channels], rfl, by rw [setInternal_nvar hu hA]⟩
  · exact ⟨_, if_neg h.channels, rfl, rfl⟩
  · intro c hc
    have hm : toChannel c ∈ o.mdl.channels := List.mem_map.2 ⟨c, hc, rfl⟩
    obtain ⟨p, q, hp⟩ := List.append_of_mem hm
    exact ⟨_, offset_eq h.names hp⟩

/-- What is known of the live version of an object. -/
structure IsLive (o : Obj) (t : Live) : Prop where
  obj : t.obj = o
  nbins : t.nbins = o.mdl.nbins
  maxSamples : t.maxSamples = o.mdl.maxSamples
  offsets : t.offsets = o.mdl.offsets
  keys : t.sampleKeys = keysOf o.doc.channels
  sym : HasArr (·.sym) [o.doc.nps.length] t
  pos : HasArr (·.pos) [o.doc.nps.length, 1] t
  neg : HasArr (·.neg) [o.doc.nps.length, 1] t
  nominal : HasArr (·.nominal) [] t
  known : ∀ c ∈ o.doc.channels, ∃ k, t.offsets.get? c.name = some k
  bins : ∀ f ∈ [Live.sym, Live.pos, Live.neg, Live.nominal], ∀ a, f t = some a → a.nb = o.mdl.nbins

theorem live_bins {o : Obj} {t : Live} (h : live o = .ok t) :
    ∀ f ∈ [Live.sym, Live.pos, Live.neg, Live.nominal], ∀ a, f t = some a → a.nb = o.mdl.nbins := by
  unfold live at h
  obtain ⟨A, -, h⟩ := bind_eq_ok.1 h
  dsimp only at h
  obtain ⟨noms, -, h⟩ := bind_eq_ok.1 h
  have h := (Except.ok.inj (ε := PyErr) h).symm
  subst h
  intro f hf a ha
  simp only [List.mem_cons, List.not_mem_nil, or_false] at hf
  rcases hf with rfl | rfl | rfl | rfl <;> dsimp only at ha <;> split_ifs at ha <;> cases ha <;> rfl

theorem isLive {o : Obj} (h : Usual o) {A : Arrays} (hA : o.mdl.setInternal = .ok A) :
    ∃ t, live o = .ok t ∧ IsLive o t := by
  obtain ⟨t, h0, h1, h2, h3, h4, h5, h6, h7, h8, h9, h10⟩ := live_ok h hA
  exact ⟨t, h0, h1, h2, h3, h4, h5, h6, h7, h8, h9, h10, live_bins h0⟩

theorem lives_ok {α : Type} {f : α → Except PyErr Obj} {l : List α} {os : List Obj} (h : l.mapM f = .ok os)
    (hl : ∀ a ∈ os, ∃ t, live a = .ok t ∧ IsLive a t) :
    ∃ ts, l.mapM (fun D => do live (← f D)) = .ok ts ∧ List.Forall₂ IsLive os ts := by
  rw [mapM_ok_iff] at h
  induction h with
  | nil => exact ⟨[], rfl, .nil⟩
  | cons h1 _ ih =>
    obtain ⟨t, e1, e2⟩ := hl _ List.mem_cons_self
    obtain ⟨ts, g1, g2⟩ := ih fun a ha => hl a (by simp [ha])
    exact ⟨t :: ts, by rw [List.mapM_cons, h1, bind_ok, e1, bind_ok, g1]; rfl, .cons e2 g2⟩

theorem flatMap_live {os : List Obj} {ts : List Live} (h : List.Forall₂ IsLive os ts) :
    ts.flatMap (·.obj.doc.channels) = os.flatMap (·.doc.channels) := by
  induction h with
  | nil => rfl
  | cons h _ ih => rw [List.flatMap_cons, List.flatMap_cons, ih, h.obj]

theorem forall₂_right {α β : Type} {R : α → β → Prop} {l : List α} {r : List β} (h : List.Forall₂ R l r) {b : β}
    (hb : b ∈ r) : ∃ a ∈ l, R a b := by
  induction h with
  | nil => cases hb
  | cons h _ ih =>
    rcases List.mem_cons.1 hb with rfl | hb
    · exact ⟨_, by simp, h⟩
    · obtain ⟨a, ha, hR⟩ := ih hb
      exact ⟨a, by simp [ha], hR⟩

theorem HasArr.of_same {f : Live → Option NArr} {tail : List Nat} {t t' : Live} (h : HasArr f tail t)
    (hf : f t' = f t) (hm : t'.maxSamples = t.maxSamples) : HasArr f tail t' := by
  obtain ⟨a, h1, h2, h3⟩ := h
  exact ⟨a, by rw [hf, h1], by rw [hm, h2], h3⟩

/-- Once the channels are there, the arrays can be concatenated. -/
theorem merge_arrays {o : Obj} {os : List Obj} {t t1 : Live} {ts : List Live} (h0 : IsLive o t)
    (h : List.Forall₂ IsLive os ts) (hP : ∀ a ∈ os, a.doc.nps.length = o.doc.nps.length)
    (hl : o.flags.use_lognormal_terms = false) (e1 : ts.foldlM addModel t = .ok t1) (e2 : Same t t1) :
    ∃ sym pos neg nom,
      merge (t :: ts) = .ok { t1 with sym := some sym, pos := some pos, neg := some neg, nominal := some nom } ∧
      joined (((t1 :: ts).map (·.maxSamples)).foldl max 0) (·.sym) (t1 :: ts) = .ok sym ∧
      joined (((t1 :: ts).map (·.maxSamples)).foldl max 0) (·.pos) (t1 :: ts) = .ok pos ∧
      joined (((t1 :: ts).map (·.maxSamples)).foldl max 0) (·.neg) (t1 :: ts) = .ok neg ∧
      joined (((t1 :: ts).map (·.maxSamples)).foldl max 0) (·.nominal) (t1 :: ts) = .ok nom := by
  have hms : ∀ md ∈ t1 :: ts, md.maxSamples ≤ ((t1 :: ts).map (·.maxSamples)).foldl max 0 := fun md hmd =>
    (foldl_max_ge ((t1 :: ts).map (·.maxSamples)) 0).2 _ (List.mem_map.2 ⟨md, hmd, rfl⟩)
  have harr : ∀ (f : Live → Option NArr) (tail : List Nat), HasArr f tail t1 → (∀ md ∈ ts, HasArr f tail md) →
      ∀ md ∈ t1 :: ts, HasArr f tail md := by
    intro f tail h1 h2 md hmd
    rcases List.mem_cons.1 hmd with rfl | hmd
    · exact h1
    · exact h2 md hmd
  have hts : ∀ md ∈ ts, ∃ a ∈ os, IsLive a md := fun md hmd => forall₂_right h hmd
  obtain ⟨sym, s1, -⟩ := joined_ok (by simp) hms (harr (·.sym) [o.doc.nps.length] (h0.sym.of_same e2.sym e2.maxSamples)
    fun md hmd => by obtain ⟨a, ha, hR⟩ := hts md hmd; rw [← hP a ha]; exact hR.sym)
  obtain ⟨pos, s2, -⟩ := joined_ok (by simp) hms (harr (·.pos) [o.doc.nps.length, 1] (h0.pos.of_same e2.pos e2.maxSamples)
    fun md hmd => by obtain ⟨a, ha, hR⟩ := hts md hmd; rw [← hP a ha]; exact hR.pos)
  obtain ⟨neg, s3, -⟩ := joined_ok (by simp) hms (harr (·.neg) [o.doc.nps.length, 1] (h0.neg.of_same e2.neg e2.maxSamples)
    fun md hmd => by obtain ⟨a, ha, hR⟩ := hts md hmd; rw [← hP a ha]; exact hR.neg)
  obtain ⟨nom, s4, -⟩ := joined_ok (by simp) hms (harr (·.nominal) [] (h0.nominal.of_same e2.nominal e2.maxSamples)
    fun md hmd => by obtain ⟨a, ha, hR⟩ := hts md hmd; exact hR.nominal)
  have hfl : t1.obj.flags.use_lognormal_terms = false := by rw [e2.flags, h0.obj, hl]
  refine ⟨sym, pos, neg, nom, ?_, s1, s2, s3, s4⟩
  unfold merge
  dsimp only
  rw [e1, bind_ok]
  rw [s1, bind_ok, s2, bind_ok, s3, bind_ok, hfl]
  simp only [Bool.false_eq_true, if_false]
  rw [s4]
  rfl

/-- The merge of models with as many NPs and with different channels. -/
theorem merge_ok {o : Obj} {os : List Obj} {t : Live} {ts : List Live} (h0 : IsLive o t)
    (h : List.Forall₂ IsLive os ts) (hP : ∀ a ∈ os, a.doc.nps.length = o.doc.nps.length)
    (hl : o.flags.use_lognormal_terms = false)
    (hn : (((o :: os).flatMap (·.doc.channels)).map (·.name)).Nodup) :
    ∃ big t1 sym pos neg nom, merge (t :: ts) = .ok big ∧ ts.foldlM addModel t = .ok t1 ∧ Same t t1 ∧
      t1.nbins = t.nbins + (ts.map fun md => md.obj.doc.channels.length * md.nbins).sum ∧
      big = { t1 with sym := some sym, pos := some pos, neg := some neg, nominal := some nom } ∧
      big.obj = ⟨{ o.doc with channels := (o :: os).flatMap (·.doc.channels) }, o.flags⟩ ∧
      joined (((t1 :: ts).map (·.maxSamples)).foldl max 0) (·.sym) (t1 :: ts) = .ok sym ∧
      joined (((t1 :: ts).map (·.maxSamples)).foldl max 0) (·.pos) (t1 :: ts) = .ok pos ∧
      joined (((t1 :: ts).map (·.maxSamples)).foldl max 0) (·.neg) (t1 :: ts) = .ok neg ∧
      joined (((t1 :: ts).map (·.maxSamples)).foldl max 0) (·.nominal) (t1 :: ts) = .ok nom := by
  obtain ⟨t1, e1, e2, e3, e4⟩ := addModels_ok ts t (fun md hmd c hcm => by
      obtain ⟨a, ha, hR⟩ := forall₂_right h hmd
      rw [hR.obj] at hcm
      exact hR.known c hcm) (by rw [flatMap_live h, h0.obj]; simpa using hn)
  obtain ⟨sym, pos, neg, nom, hm, s1, s2, s3, s4⟩ := merge_arrays h0 h hP hl e1 e2
  refine ⟨_, t1, sym, pos, neg, nom, hm, e1, e2, e4, rfl, ?_, s1, s2, s3, s4⟩
  show t1.obj = _
  obtain ⟨⟨doc, fl⟩, _⟩ := t1
  have d := e2.doc
  have f := e2.flags
  rw [e3, flatMap_live h, h0.obj] at d
  rw [h0.obj] at f
  dsimp only at d f ⊢
  rw [d, f]
  rfl

end MergeM
end Verif
