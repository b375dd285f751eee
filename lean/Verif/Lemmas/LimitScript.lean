import Verif.Model.LimitScript
import Verif.Spec.LimitScript
import Verif.Lemmas.Sampling
import Verif.Lemmas.Hypo
import Verif.Lemmas.LockProto
import Verif.Props.Scans
/-! Helper lemmas on `compute_limits`. -/
namespace Verif
open Props

theorem Scan.limitErr_limit (L : SplineLib) (key poi : String) (r : SRaster) (cl x xu xd : ℝ)
    (h : Scan.limitErr L key poi r cl = .ok (some (x, xu, xd))) : Scan.limit L key poi r cl = .ok (some x) := by
  unfold Scan.limitErr at h
  obtain ⟨cs, hc, h⟩ := bind_eq_ok.1 h
  cases cs with
  | nil => cases h
  | cons c rest =>
    have hcx : c = (x, xu, xd) := by
      have := Except.ok.inj (ε := PyErr) h
      exact Option.some.inj this
    subst hcx
    unfold Scan.crossingsErr at hc
    obtain ⟨p0, hp0, hc⟩ := bind_eq_ok.1 hc
    obtain ⟨pu, hpu, hc⟩ := bind_eq_ok.1 hc
    obtain ⟨pd, hpd, hc⟩ := bind_eq_ok.1 hc
    obtain ⟨c0, hc0, hc⟩ := bind_eq_ok.1 hc
    obtain ⟨cu, hcu, hc⟩ := bind_eq_ok.1 hc
    obtain ⟨cd, hcd, hc⟩ := bind_eq_ok.1 hc
    obtain ⟨lu, hlu, hc⟩ := bind_eq_ok.1 hc
    obtain ⟨l0, hl0, hc⟩ := bind_eq_ok.1 hc
    have hz : ∃ l0', l0 = x :: l0' := by
      by_cases h1 : lu.length ≠ l0.length
      · simp [h1] at hc
      · simp only [h1, if_false] at hc
        obtain ⟨ld, hld, hc⟩ := bind_eq_ok.1 hc
        by_cases h2 : ld.length ≠ l0.length
        · simp [h2] at hc
        · simp only [h2, if_false] at hc
          have := Except.ok.inj (ε := PyErr) hc
          cases l0 with
          | nil => simp at this
          | cons a l0' =>
            cases hq : lu.zip ld with
            | nil => simp [hq] at this
            | cons b q =>
              simp [hq] at this
              exact ⟨l0', by rw [this.1.1]⟩
    obtain ⟨l0', rfl⟩ := hz
    unfold Scan.limit Scan.crossings
    rw [hp0]
    simp only [bind_ok]
    rw [hc0]
    simp only [bind_ok]
    rw [hl0]
    rfl

namespace LimScr

theorem with_left {α β : Type} {R : α → β → Prop} {l : List α} {r : List β} (h : List.Forall₂ R l r) :
    List.Forall₂ (fun a b => a ∈ l ∧ R a b) l r := by
  induction h with
  | nil => exact .nil
  | cons hh _ ih => exact .cons ⟨by simp, hh⟩ (ih.imp fun a b q => ⟨by simp [q.1], q.2⟩)

open Spec (kept toyCls)

theorem finish_inv {L : SplineLib} {h : List String → ℕ} {run : Run} {plan : Plan} {s : CLsSamples} {rep : Report}
    (hf : finish L h run plan s = .ok rep) :
    ∃ s' r r', cutStage h run.truncate s = .ok s' ∧ plan.raster.mapM (samplingPoint h s') = .ok r ∧
      bandStage h s' run.bands r = .ok r' ∧
      upper L (Raster.haveCompatiblePois (plan.raster.map Prod.fst)) r' "pv" run.cl = .ok rep.asyClsb ∧
      upper L (Raster.haveCompatiblePois (plan.faster.map Prod.fst)) (SRaster.ofRaster plan.faster) "pv" run.cl =
        .ok rep.asyClsbFast ∧
      upperErr L (Raster.haveCompatiblePois (plan.raster.map Prod.fst)) r' "sampling_pv" run.cl = .ok rep.samplingClsb ∧
      upper L (Raster.haveCompatiblePois (plan.raster.map Prod.fst)) r' "cls" run.cl = .ok rep.asyCls ∧
      upper L (Raster.haveCompatiblePois (plan.faster.map Prod.fst)) (SRaster.ofRaster plan.faster) "cls" run.cl =
        .ok rep.asyClsFast ∧
      upperErr L (Raster.haveCompatiblePois (plan.raster.map Prod.fst)) r' "sampling_cls" run.cl = .ok rep.samplingCls ∧
      bandLimits L (Raster.haveCompatiblePois (plan.raster.map Prod.fst)) r' run.bands = .ok rep.bands ∧
      poi0 run.c.m = .ok rep.poiName ∧ rep.cl = run.cl := by
  unfold finish at hf
  obtain ⟨s', hs, hf⟩ := bind_eq_ok.1 hf
  obtain ⟨_, _, hf⟩ := bind_eq_ok.1 hf
  obtain ⟨r, hr, hf⟩ := bind_eq_ok.1 hf
  obtain ⟨r', hr', hf⟩ := bind_eq_ok.1 hf
  obtain ⟨a1, h1, hf⟩ := bind_eq_ok.1 hf
  obtain ⟨a2, h2, hf⟩ := bind_eq_ok.1 hf
  obtain ⟨a3, h3, hf⟩ := bind_eq_ok.1 hf
  obtain ⟨a4, h4, hf⟩ := bind_eq_ok.1 hf
  obtain ⟨a5, h5, hf⟩ := bind_eq_ok.1 hf
  obtain ⟨a6, h6, hf⟩ := bind_eq_ok.1 hf
  obtain ⟨b, hb, hf⟩ := bind_eq_ok.1 hf
  obtain ⟨n0, hn, hf⟩ := bind_eq_ok.1 hf
  have := Except.ok.inj (ε := PyErr) hf
  subst this
  exact ⟨s', r, r', hs, hr, hr', h1, h2, h3, h4, h5, h6, hb, hn, rfl⟩

theorem upper_inv {L : SplineLib} {pois : List String} {r : SRaster} {key : String} {cl : ℝ} {o : Option ℝ}
    (h : upper L pois r key cl = .ok o) :
    ∃ poi, pois.head? = some poi ∧ Scan.limit L key poi r cl = .ok o := by
  unfold upper at h
  obtain ⟨_, _, h⟩ := bind_eq_ok.1 h
  obtain ⟨poi, hp, h⟩ := bind_eq_ok.1 h
  refine ⟨poi, ?_, h⟩
  cases pois with
  | nil => cases hp
  | cons a l => simpa [Scan.findPoi] using hp

theorem upperErr_inv {L : SplineLib} {pois : List String} {r : SRaster} {key : String} {cl : ℝ}
    {o : Option (ℝ × ℝ × ℝ)} (h : upperErr L pois r key cl = .ok o) :
    ∃ poi, pois.head? = some poi ∧ Scan.limitErr L key poi r cl = .ok o := by
  unfold upperErr at h
  obtain ⟨_, _, h⟩ := bind_eq_ok.1 h
  obtain ⟨poi, hp, h⟩ := bind_eq_ok.1 h
  refine ⟨poi, ?_, h⟩
  cases pois with
  | nil => cases hp
  | cons a l => simpa [Scan.findPoi] using hp

/-! ### The bands do not touch the other values -/

/-- Same hypothesis, and the same values under keys that are not bands. -/
def SameVals (e e' : Hypo × SPoint) : Prop :=
  e'.1 = e.1 ∧ e'.2.test_statistics = e.2.test_statistics ∧
    ∀ k, (∀ i, k ≠ bandKey i) → Dict.get? e'.2.pvs k = Dict.get? e.2.pvs k

theorem SameVals.refl (e : Hypo × SPoint) : SameVals e e := ⟨rfl, rfl, fun _ _ => rfl⟩

theorem SameVals.trans {a b c : Hypo × SPoint} (h : SameVals a b) (h' : SameVals b c) : SameVals a c :=
  ⟨h'.1.trans h.1, h'.2.1.trans h.2.1, fun k hk => (h'.2.2 k hk).trans (h.2.2 k hk)⟩

theorem sameVals_refl (r : SRaster) : List.Forall₂ SameVals r r := by
  induction r with
  | nil => exact .nil
  | cons a r ih => exact .cons (SameVals.refl a) ih

theorem sameVals_trans {a b c : SRaster} (h : List.Forall₂ SameVals a b) (h' : List.Forall₂ SameVals b c) :
    List.Forall₂ SameVals a c := by
  induction h generalizing c with
  | nil => exact h'
  | cons hx _ ih => cases h' with | cons hy h' => exact .cons (hx.trans hy) (ih h')

theorem addBand_same (r : SRaster) (i : ℤ) (vals : List ℝ) : List.Forall₂ SameVals r (addBand r i vals) := by
  unfold addBand
  induction r generalizing vals with
  | nil => cases vals <;> exact .nil
  | cons e r ih =>
    cases vals with
    | nil => exact sameVals_refl (e :: r)
    | cons v vals =>
      refine .cons ⟨rfl, rfl, fun k hk => ?_⟩ (by simpa using ih vals)
      exact Dict.get?_set_ne _ _ (hk i).symm

theorem addBands_same (bds : List (ℤ × List ℝ)) (r : SRaster) :
    List.Forall₂ SameVals r (bds.foldl (fun r x => addBand r x.1 x.2) r) := by
  induction bds generalizing r with
  | nil => exact sameVals_refl r
  | cons b bds ih => exact sameVals_trans (addBand_same r b.1 b.2) (ih _)

theorem bandStage_same {h : List String → ℕ} {s : CLsSamples} {bands : Option ℕ} {r r' : SRaster}
    (hb : bandStage h s bands r = .ok r') : List.Forall₂ SameVals r r' := by
  unfold bandStage at hb
  match bands with
  | none => cases hb; exact sameVals_refl r
  | some 0 => cases hb; exact sameVals_refl r
  | some (b + 1) =>
    obtain ⟨bds, _, hb⟩ := bind_eq_ok.1 hb
    cases hb
    exact addBands_same bds r

theorem bandKey_long (i : ℤ) : 14 ≤ (bandKey i).length := by
  unfold bandKey
  have h1 : ("sampling_cls_" : String).length = 13 := by decide
  have h2 : ∀ b : Prop, [Decidable b] → (if b then "-" else "+" : String).length = 1 := by
    intro b _; split <;> decide
  rw [String.length_append, String.length_append, h1, h2]
  omega

theorem not_band {k : String} (h : k.length < 14) (i : ℤ) : k ≠ bandKey i := by
  rintro rfl
  exact absurd (bandKey_long i) (by omega)

/-! ### The values at a point -/

/-- The CLs value from the toys: the ratio of the two fractions, and 1 if the second one is 0. -/
theorem cls_value (h : List String → ℕ) (s : CLsSamples) (a : Hypo) (lsb lb : List ℝ) (h1 : lsb ≠ []) (h2 : lb ≠ [])
    (g1 : s.clsb.dists.getItem h a = .ok (SampDist.sort lsb)) (g2 : s.cl_b.dists.getItem h a = .ok (SampDist.sort lb))
    (x : ℝ) (o : ℝ × ℝ) (ho : s.pvErr h a x = .ok o) :
    o.1 = toyCls lsb lb x := by
  unfold toyCls
  obtain ⟨e1, he1⟩ : ∃ e, SampDist.pvErr (SampDist.sort lsb) x = .ok (Spec.midP lsb x, e) := by
    obtain ⟨e, he⟩ := SampDist.pvErr_init lsb h1 x
    exact ⟨e, by first | exact he | exact he.1⟩
  obtain ⟨e2, he2⟩ : ∃ e, SampDist.pvErr (SampDist.sort lb) x = .ok (Spec.midP lb x, e) := by
    obtain ⟨e, he⟩ := SampDist.pvErr_init lb h2 x
    exact ⟨e, by first | exact he | exact he.1⟩
  unfold CLsSamples.pvErr Samples.pvErr at ho
  simp only [g1, g2, bind_ok, he1, he2] at ho
  have r2 := SampDist.midP_range lb h2 x
  have r1 := SampDist.midP_range lsb h1 x
  by_cases hz : Spec.midP lb x ≤ 0
  · have hz0 : Spec.midP lb x = 0 := le_antisymm hz r2.1
    rw [if_pos hz] at ho
    cases ho
    simp [hz0]
  · have hz0 : Spec.midP lb x ≠ 0 := fun h => hz h.le
    rw [if_neg hz] at ho
    by_cases hy : Spec.midP lsb x ≤ 0
    · have hy0 : Spec.midP lsb x = 0 := le_antisymm hy r1.1
      rw [if_pos hy] at ho
      cases ho
      simp [hy0, hz0]
    · rw [if_neg hy] at ho
      cases ho
      simp [hz0]

theorem get?_num (d : Dict ℝ) (k : String) :
    Dict.get? (d.map (fun kv => (kv.1, SVal.num kv.2))) k = (Dict.get? d k).map SVal.num := by
  induction d with
  | nil => rfl
  | cons a d ih =>
    simp only [List.map_cons, Dict.get?]
    split
    · rfl
    · exact ih

/-- What `samplingPoint` stores. -/
theorem samplingPoint_inv {h : List String → ℕ} {s : CLsSamples} {e : Hypo × REntry} {q : Hypo × SPoint}
    (hq : samplingPoint h s e = .ok q) :
    ∃ pv sb b cls, Dict.get? e.2.data.pvs "pv" = some pv ∧ s.clsb.pvErr h e.2.data.hypo pv = .ok sb ∧
      s.cl_b.pvErr h e.2.data.hypo pv = .ok b ∧ s.pvErr h e.2.data.hypo pv = .ok cls ∧ q.1 = e.1 ∧
      Dict.get? q.2.pvs "sampling_pv" = some (.pair sb.1 sb.2) ∧
      Dict.get? q.2.pvs "sampling_clb" = some (.pair b.1 b.2) ∧
      Dict.get? q.2.pvs "sampling_cls" = some (.pair cls.1 cls.2) ∧
      Dict.get? q.2.pvs "pv" = some (.num pv) ∧
      (∀ c, Dict.get? e.2.data.pvs "cls" = some c → Dict.get? q.2.pvs "cls" = some (.num c)) := by
  unfold samplingPoint at hq
  obtain ⟨pv, hpv, hq⟩ := bind_eq_ok.1 hq
  obtain ⟨sb, hsb, hq⟩ := bind_eq_ok.1 hq
  obtain ⟨b, hb, hq⟩ := bind_eq_ok.1 hq
  obtain ⟨cls, hcls, hq⟩ := bind_eq_ok.1 hq
  cases hq
  have hpv' : Dict.get? e.2.data.pvs "pv" = some pv := Dict.getItem_ok.1 hpv
  refine ⟨pv, sb, b, cls, hpv', hsb, hb, hcls, rfl, ?_, ?_, ?_, ?_, ?_⟩
  · simp [Dict.get?_set]
  · simp [Dict.get?_set]
  · simp [Dict.get?_set]
  · simp only [Dict.get?_set]
    simpa using (get?_num _ _).trans (by rw [hpv']; rfl)
  · intro c hc
    simp only [Dict.get?_set]
    simpa using (get?_num _ _).trans (by rw [hc]; rfl)

/-! ### Truncation -/

open Classical in
theorem cutAll_get (h : List String → ℕ) (v : ℝ) (hv : v ≠ 0) (hypos : List Hypo) (hw : ∀ a ∈ hypos, a.WF) :
    ∀ (d d' : HDict (List ℝ)), d.WF → cutAll h v hypos d = .ok d' → d'.WF ∧
      ∀ b : Hypo, b.WF → d'.get? h b =
        if ∃ a ∈ hypos, a.matches h b then (d.get? h b).map (fun l => l.filter (fun x => decide (x ≤ v)))
        else d.get? h b := by
  have hcut : ∀ l, SampDist.cut l none (some v) = l.filter (fun x => decide (x ≤ v)) := by
    intro l
    have ht : SampDist.truthy (some v) = some v := by simp [SampDist.truthy, hv]
    have hn : SampDist.truthy none = none := rfl
    simp only [SampDist.cut, ht, hn]
  induction hypos with
  | nil =>
    intro d d' hd he
    cases he
    exact ⟨hd, fun b _ => by simp⟩
  | cons a l ih =>
    intro d d' hd he
    unfold cutAll at he
    rw [List.foldlM_cons] at he
    obtain ⟨d1, h1, he⟩ := bind_eq_ok.1 he
    obtain ⟨s, hs, h1⟩ := bind_eq_ok.1 h1
    have h1' := Except.ok.inj (ε := PyErr) h1
    subst h1'
    have hs' := (HDict.getItem_ok h _ _ _).1 hs
    have ha : a.WF := hw a (by simp)
    have hd1 := HDict.wf_set h hd ha (SampDist.cut s none (some v))
    obtain ⟨hd', hg⟩ := ih (fun b hb => hw b (by simp [hb])) _ d' hd1 he
    refine ⟨hd', fun b hb => ?_⟩
    rw [hg b hb, HDict.get?_set h hd ha hb, hcut]
    by_cases hab : a.matches h b
    · have hdb : d.get? h b = some s := by rw [← HDict.get?_congr h hd ha hb hab]; exact hs'
      rw [if_pos hab, if_pos (⟨a, by simp, hab⟩ : ∃ x ∈ a :: l, x.matches h b), hdb]
      split
      · simp [List.filter_filter]
      · rfl
    · rw [if_neg hab]
      have : (∃ x ∈ a :: l, x.matches h b) ↔ ∃ x ∈ l, x.matches h b := by
        constructor
        · rintro ⟨x, hx, hm⟩
          rcases List.mem_cons.1 hx with rfl | hx
          · exact absurd hm hab
          · exact ⟨x, hx, hm⟩
        · rintro ⟨x, hx, hm⟩
          exact ⟨x, List.mem_cons_of_mem _ hx, hm⟩
      by_cases hl : ∃ x ∈ l, x.matches h b
      · rw [if_pos hl, if_pos (this.2 hl)]
      · rw [if_neg hl, if_neg (fun h => hl (this.1 h))]

open Classical in
theorem filter_sort (p : ℝ → Bool) (l : List ℝ) : (SampDist.sort l).filter p = SampDist.sort (l.filter p) := by
  rw [← SampDist.sort_of_sorted ((SampDist.sort_sorted l).filter p)]
  exact SampDist.sort_congr ((SampDist.sort_perm l).filter p)

theorem cutStage_get {h : List String → ℕ} {v : Option ℝ} {s s' : CLsSamples} (hc : cutStage h v s = .ok s')
    (hd1 : s.clsb.dists.WF) (hd2 : s.cl_b.dists.WF) (hw1 : ∀ a ∈ s.clsb.hypos, a.WF) (hw2 : ∀ a ∈ s.cl_b.hypos, a.WF) :
    s'.clsb.hypos = s.clsb.hypos ∧ s'.cl_b.hypos = s.cl_b.hypos ∧
    (∀ a ∈ s.clsb.hypos, ∀ l, s.clsb.dists.getItem h a = .ok (SampDist.sort l) →
      s'.clsb.dists.getItem h a = .ok (SampDist.sort (kept v l))) ∧
    (∀ a ∈ s.cl_b.hypos, ∀ l, s.cl_b.dists.getItem h a = .ok (SampDist.sort l) →
      s'.cl_b.dists.getItem h a = .ok (SampDist.sort (kept v l))) := by
  unfold cutStage at hc
  cases hv : SampDist.truthy v with
  | none =>
    rw [hv] at hc
    cases hc
    have hk : ∀ l, kept v l = l := by
      intro l
      unfold kept
      rw [List.filter_eq_self]
      intro x _
      simp only [decide_eq_true_eq]
      intro t ht h0
      cases ht
      simp [SampDist.truthy, h0] at hv
    simp only [hk]
    exact ⟨trivial, trivial, fun _ _ _ h => h, fun _ _ _ h => h⟩
  | some t =>
    rw [hv] at hc
    have ht : v = some t ∧ t ≠ 0 := by
      cases v with
      | none => cases hv
      | some u =>
        have hu : u = t ∧ t ≠ 0 := by simpa [SampDist.truthy] using hv
        exact ⟨by rw [hu.1], hu.2⟩
    obtain ⟨a, ha, hc⟩ := bind_eq_ok.1 hc
    obtain ⟨b, hb, hc⟩ := bind_eq_ok.1 hc
    cases hc
    have hk : ∀ l, (SampDist.sort l).filter (fun x => decide (x ≤ t)) = SampDist.sort (kept v l) := by
      intro l
      rw [filter_sort]
      unfold kept
      congr 1
      apply List.filter_congr
      intro x _
      simp [ht.1, ht.2]
    refine ⟨rfl, rfl, fun x hx l hl => ?_, fun x hx l hl => ?_⟩
    · have hg := (cutAll_get h t ht.2 _ hw1 _ _ hd1 ha).2 x (hw1 x hx)
      rw [if_pos ⟨x, hx, Hypo.matches_refl h (hw1 x hx)⟩, (HDict.getItem_ok h _ _ _).1 hl] at hg
      rw [HDict.getItem_ok, hg, Option.map_some, ← hk]
    · have hg := (cutAll_get h t ht.2 _ hw2 _ _ hd2 hb).2 x (hw2 x hx)
      rw [if_pos ⟨x, hx, Hypo.matches_refl h (hw2 x hx)⟩, (HDict.getItem_ok h _ _ _).1 hl] at hg
      rw [HDict.getItem_ok, hg, Option.map_some, ← hk]

/-! ### The points of the scans -/

theorem value_pair {key : String} {q : SPoint} {x e : ℝ} (h : Dict.get? q.pvs key = some (.pair x e)) :
    Scan.value key q = .ok x := by
  simp [Scan.value, h]

theorem value_num {key : String} {q : SPoint} {x : ℝ} (h : Dict.get? q.pvs key = some (.num x)) :
    Scan.value key q = .ok x := by
  simp [Scan.value, h]

/-- The points of a scan after the stages, from what is known at each point of the raster. -/
theorem scanPoints {h : List String → ℕ} {s : CLsSamples} {raster : Raster} {r r' : SRaster} {key poi : String}
    {pts : List (ℝ × ℝ)} (hr : raster.mapM (samplingPoint h s) = .ok r) (hr' : List.Forall₂ SameVals r r')
    (hk : key.length < 14)
    (hp : List.Forall₂ (fun e p => Dict.get? e.1 poi = some p.1 ∧ ∀ q, samplingPoint h s e = .ok q →
      ∃ v, Dict.get? q.2.pvs key = some v ∧ ∀ y, (v = .num y ∨ ∃ d, v = .pair y d) → p.2 = y) raster pts) :
    PointsAre key poi 0 r' pts := by
  have hr2 := mapM_ok_iff.1 hr
  clear hr
  unfold PointsAre
  induction hr2 generalizing r' pts with
  | nil => cases hr'; cases hp; exact .nil
  | @cons e q l r hq hl ih =>
    cases hr' with
    | cons hs hr' =>
      cases hp with
      | cons hpe hp =>
        refine .cons ⟨?_, ?_⟩ (ih hr' hp)
        · obtain ⟨pv, sb, b, cls, _, _, _, _, h1, _⟩ := samplingPoint_inv hq
          rw [hs.1, h1]; exact hpe.1
        · obtain ⟨v, hv, hy⟩ := hpe.2 q hq
          rw [← hs.2.2 key (not_band hk)] at hv
          cases v with
          | num y => rw [value_num hv, hy y (Or.inl rfl)]
          | pair y d => rw [value_pair hv, hy y (Or.inr ⟨d, rfl⟩)]

theorem cutAll_has (h : List String → ℕ) (v : ℝ) (hypos : List Hypo) (a : Hypo) :
    ∀ (d d' : HDict (List ℝ)), d.get? h a = none → (∀ b ∈ hypos, b.WF) → d.WF → a.WF → cutAll h v hypos d = .ok d' →
      d'.get? h a = none := by
  induction hypos with
  | nil => intro d d' hn _ _ _ he; cases he; exact hn
  | cons b l ih =>
    intro d d' hn hw hd ha he
    unfold cutAll at he
    rw [List.foldlM_cons] at he
    obtain ⟨d1, h1, he⟩ := bind_eq_ok.1 he
    obtain ⟨s, hs, h1⟩ := bind_eq_ok.1 h1
    have h1' := Except.ok.inj (ε := PyErr) h1
    subst h1'
    have hb : b.WF := hw b (by simp)
    refine ih _ d' ?_ (fun b hb => hw b (by simp [hb])) (HDict.wf_set h hd hb _) ha he
    rw [HDict.get?_set h hd hb ha]
    by_cases hba : b.matches h a
    · rw [HDict.getItem_ok, HDict.get?_congr h hd hb ha hba, hn] at hs; cases hs
    · rw [if_neg hba, hn]

theorem cutStage_has {h : List String → ℕ} {v : Option ℝ} {s s' : CLsSamples} (hc : cutStage h v s = .ok s')
    (hd1 : s.clsb.dists.WF) (hd2 : s.cl_b.dists.WF) (hw1 : ∀ a ∈ s.clsb.hypos, a.WF) (hw2 : ∀ a ∈ s.cl_b.hypos, a.WF)
    (a : Hypo) (ha : a.WF) :
    (s.clsb.dists.get? h a = none → s'.clsb.dists.get? h a = none) ∧
    (s.cl_b.dists.get? h a = none → s'.cl_b.dists.get? h a = none) := by
  unfold cutStage at hc
  cases hv : SampDist.truthy v with
  | none =>
    rw [hv] at hc
    cases hc
    exact ⟨id, id⟩
  | some t =>
    rw [hv] at hc
    obtain ⟨d1, h1, hc⟩ := bind_eq_ok.1 hc
    obtain ⟨d2, h2, hc⟩ := bind_eq_ok.1 hc
    cases hc
    exact ⟨fun hn => cutAll_has h t _ a _ _ hn hw1 hd1 ha h1, fun hn => cutAll_has h t _ a _ _ hn hw2 hd2 ha h2⟩

/-- Results need samples at every point. -/
theorem finish_has {L : SplineLib} {h : List String → ℕ} {run : Run} {plan : Plan} {s : CLsSamples} {rep : Report}
    (hf : finish L h run plan s = .ok rep)
    (hd1 : s.clsb.dists.WF) (hd2 : s.cl_b.dists.WF) (hw1 : ∀ a ∈ s.clsb.hypos, a.WF) (hw2 : ∀ a ∈ s.cl_b.hypos, a.WF)
    (e : Hypo × REntry) (he : e ∈ plan.raster) (ha : e.2.data.hypo.WF) :
    ∃ v1 v2, s.clsb.dists.getItem h e.2.data.hypo = .ok v1 ∧ s.cl_b.dists.getItem h e.2.data.hypo = .ok v2 := by
  obtain ⟨s', r, r', hc, hr, _⟩ := finish_inv hf
  obtain ⟨q, hq⟩ := mapM_ok_mem hr e he
  obtain ⟨pv, sb, b, cls, _, hsb, hb, _⟩ := samplingPoint_inv hq
  have hhas := cutStage_has hc hd1 hd2 hw1 hw2 e.2.data.hypo ha
  unfold Samples.pvErr at hsb hb
  obtain ⟨w1, g1, _⟩ := bind_eq_ok.1 hsb
  obtain ⟨w2, g2, _⟩ := bind_eq_ok.1 hb
  rw [HDict.getItem_ok] at g1 g2
  cases k1 : s.clsb.dists.get? h e.2.data.hypo with
  | none => rw [hhas.1 k1] at g1; cases g1
  | some v1 =>
    cases k2 : s.cl_b.dists.get? h e.2.data.hypo with
    | none => rw [hhas.2 k2] at g2; cases g2
    | some v2 => exact ⟨v1, v2, (HDict.getItem_ok h _ _ _).2 k1, (HDict.getItem_ok h _ _ _).2 k2⟩

/-! ### Samplers that always fail -/

theorem toys_error {r : ℕ → Except PyErr (Option ℝ)} (hr : ∀ i v, r i ≠ .ok v) {mt n fuel : ℕ} (hn : 0 < n)
    {o : Except PyErr (List ℝ)} (h : Sampler.generate r mt n fuel = some o) : ∃ e, o = .error e := by
  unfold Sampler.generate at h
  obtain ⟨n, rfl⟩ := Nat.exists_eq_succ_of_ne_zero hn.ne'
  cases fuel with
  | zero => simp [Sampler.toys, Sampler.toy] at h
  | succ fuel =>
    cases h0 : r 0 with
    | ok v => exact absurd h0 (hr 0 v)
    | error e =>
      simp [Sampler.toys, Sampler.toy, h0] at h
      exact ⟨e, h.symm⟩

theorem oneHypo_fails {f : String} {n : ℕ} {brk : Bool} {e : PyErr} {d : Dir} (hd : ∀ f, d.files f = none) :
    (∀ g, (oneHypo f n brk (.error e) d).1.files g = none) ∧
      ∀ s, (oneHypo f n brk (.error e) d).2 ≠ .ok (some s) := by
  unfold oneHypo
  rw [hd f]
  dsimp only
  by_cases hl : (d.locks f && !brk) = true
  · rw [if_pos hl]; exact ⟨hd, fun s h => by cases h⟩
  · rw [if_neg hl]; exact ⟨hd, fun s h => by cases h⟩

theorem genSave_fails (h : List String → ℕ) (fname : Hypo → String) (n : ℕ) (brk : Bool)
    (l : List (Hypo × Except PyErr (List ℝ))) (hl : ∀ x ∈ l, ∃ e, x.2 = .error e) :
    ∀ (d : Dir) (acc : HDict (List ℝ)), (∀ f, d.files f = none) →
      (∀ g, (genSave h fname n brk l d acc).1.files g = none) ∧
      ∀ r, (genSave h fname n brk l d acc).2 = .ok r → r = acc := by
  induction l with
  | nil => intro d acc hd; exact ⟨hd, fun r h => (Except.ok.inj (ε := PyErr) h).symm⟩
  | cons x l ih =>
    intro d acc hd
    obtain ⟨a, out⟩ := x
    obtain ⟨e, he⟩ := hl (a, out) (by simp)
    have he' : out = .error e := he
    subst he'
    have h1 := oneHypo_fails (f := fname a) (n := n) (brk := brk) (e := e) hd
    unfold genSave
    cases ho : oneHypo (fname a) n brk (.error e) d with
    | mk d' o =>
      rw [ho] at h1
      cases o with
      | error e' => exact ⟨h1.1, fun r h => by cases h⟩
      | ok o =>
        cases o with
        | none => exact ih (fun x hx => hl x (by simp [hx])) d' acc h1.1
        | some s => exact absurd rfl (h1.2 s)

theorem finish_empty {L : SplineLib} {h : List String → ℕ} {run : Run} {plan : Plan} {s : CLsSamples}
    (hr : plan.raster ≠ []) (hd : s.clsb.dists = []) (rep : Report) : finish L h run plan s ≠ .ok rep := by
  intro hf
  obtain ⟨s', r, r', hc, hm, _⟩ := finish_inv hf
  obtain ⟨e, l, hel⟩ := List.exists_cons_of_ne_nil hr
  obtain ⟨q, hq⟩ := mapM_ok_mem hm e (by rw [hel]; simp)
  obtain ⟨pv, sb, b, cls, _, hsb, _⟩ := samplingPoint_inv hq
  have hd' : s'.clsb.dists = [] := by
    unfold cutStage at hc
    cases hv : SampDist.truthy run.truncate with
    | none => rw [hv] at hc; cases hc; exact hd
    | some t =>
      rw [hv] at hc
      obtain ⟨d1, h1, hc⟩ := bind_eq_ok.1 hc
      obtain ⟨d2, h2, hc⟩ := bind_eq_ok.1 hc
      cases hc
      dsimp only
      cases hh : s.clsb.hypos with
      | nil => rw [hh] at h1; cases h1; exact hd
      | cons a l =>
        rw [hh, hd] at h1
        unfold cutAll at h1
        rw [List.foldlM_cons] at h1
        obtain ⟨_, h1, _⟩ := bind_eq_ok.1 h1
        obtain ⟨_, h1, _⟩ := bind_eq_ok.1 h1
        cases h1
  unfold Samples.pvErr at hsb
  rw [hd'] at hsb
  obtain ⟨_, g, _⟩ := bind_eq_ok.1 hsb
  cases g

/-- The samplers prepared for the points. -/
theorem prepare_inv {h : List String → ℕ} {L : Cmd.Lib} {run : Run} {plan : Plan} (hp : prepare h L run = .ok plan) :
    ∃ gens, rasters h L run = .ok (plan.raster, plan.faster, gens) ∧
      List.Forall₂ (fun x s => samplersAt run x.1.1 x.1.2 x.2 = .ok s) ((plan.raster.zip plan.faster).zip gens)
        plan.samplers := by
  unfold prepare at hp
  obtain ⟨⟨r, fast, gens⟩, hr, hp⟩ := bind_eq_ok.1 hp
  obtain ⟨s, hs, hp⟩ := bind_eq_ok.1 hp
  cases hp
  exact ⟨gens, hr, mapM_ok_iff.1 hs⟩

theorem samplersAt_inv {run : Run} {e fast : Hypo × REntry} {gen : Pars ℝ} {s : Smp × Smp}
    (h : samplersAt run e fast gen = .ok s) :
    ∃ a n0 gen0 f p b, Dict.get? fast.2.data.testStats "tmu_A0" = some a ∧ poi0 run.c.m = .ok n0 ∧
      gen.set run.c.m n0 0 false = .ok gen0 ∧ e.2.data.freeFit = some f ∧
      OptiSampler.setPoiValuesAndRanges run.c.m f = .ok (p, b) ∧
      s = (⟨⟨e.2.data.hypo, gen, run.genBounds, some a, some a⟩, b⟩,
            ⟨⟨e.2.data.hypo, gen0, run.genBounds, some a, some a⟩, b⟩) := by
  unfold samplersAt at h
  obtain ⟨a, ha, h⟩ := bind_eq_ok.1 h
  obtain ⟨n0, hn, h⟩ := bind_eq_ok.1 h
  obtain ⟨g0, hg, h⟩ := bind_eq_ok.1 h
  cases hf : e.2.data.freeFit with
  | none => rw [hf] at h; cases h
  | some f =>
    rw [hf] at h
    obtain ⟨⟨p, b⟩, hb, h⟩ := bind_eq_ok.1 h
    cases h
    exact ⟨a, n0, g0, f, p, b, Dict.getItem_ok.1 ha, hn, hg, rfl, hb, rfl⟩

theorem zip_drop {α β γ : Type} {a : α} {b : β} {c : γ} {la : List α} {lb : List β} {lc : List γ}
    (h : ((a, b), c) ∈ (la.zip lb).zip lc) : (a, c) ∈ la.zip lc := by
  induction la generalizing lb lc with
  | nil => simp at h
  | cons x la ih =>
    cases lb with
    | nil => simp at h
    | cons y lb =>
      cases lc with
      | nil => simp at h
      | cons z lc =>
        simp only [List.zip_cons_cons, List.mem_cons, Prod.mk.injEq] at h ⊢
        rcases h with ⟨⟨h1, _⟩, h2⟩ | h
        · exact Or.inl ⟨h1, h2⟩
        · exact Or.inr (ih h)

theorem fillEntry_fit {k : CalcKind} {e e' : Hypo × REntry} (h : fillEntry k e = .ok e') :
    e'.2.data.hypoFit = e.2.data.hypoFit := by
  unfold fillEntry at h
  obtain ⟨d, hd, h⟩ := bind_eq_ok.1 h
  cases h
  dsimp only
  unfold fillPv at hd
  cases k with
  | tmu =>
    obtain ⟨q, _, hd⟩ := bind_eq_ok.1 hd
    cases hd; rfl
  | qmu =>
    obtain ⟨q, _, hd⟩ := bind_eq_ok.1 hd
    obtain ⟨_, _, hd⟩ := bind_eq_ok.1 hd
    obtain ⟨_, _, hd⟩ := bind_eq_ok.1 hd
    obtain ⟨_, _, hd⟩ := bind_eq_ok.1 hd
    cases hd; rfl
  | qmutilda =>
    obtain ⟨q, _, hd⟩ := bind_eq_ok.1 hd
    obtain ⟨_, _, hd⟩ := bind_eq_ok.1 hd
    obtain ⟨_, _, hd⟩ := bind_eq_ok.1 hd
    obtain ⟨_, _, hd⟩ := bind_eq_ok.1 hd
    cases hd; rfl

theorem gens_ind {m : ParModel ℝ} {k : CalcKind} {r0 r : Raster} {gens : List (Pars ℝ)}
    (hfill : List.Forall₂ (fun e e' => fillEntry k e = .ok e') r0 r)
    (hgens : List.Forall₂ (fun e g => genPars m e = .ok g) r0 gens) :
    ∀ x ∈ r.zip gens, ∃ f, x.1.2.data.hypoFit = some f ∧ f.pars m = .ok x.2 := by
  induction hfill generalizing gens with
  | nil => intro x hx; simp at hx
  | @cons e e' r0 r he _ ih =>
    cases hgens with
    | @cons _ g _ gens hge hgens =>
      intro x hx
      simp only [List.zip_cons_cons, List.mem_cons] at hx
      rcases hx with rfl | hx
      · have hfit : e'.2.data.hypoFit = e.2.data.hypoFit := fillEntry_fit he
        unfold genPars at hge
        cases hq : e.2.data.hypoFit with
        | none => rw [hq] at hge; cases hge
        | some f => rw [hq] at hge; exact ⟨f, by rw [hfit, hq], hge⟩
      · exact ih hgens x hx

/-- The generation parameters are those of the fits of the file. -/
theorem gens_of {h : List String → ℕ} {L : Cmd.Lib} {run : Run} {r fast : Raster} {gens : List (Pars ℝ)}
    (hs : run.sethypo = []) (hr : rasters h L run = .ok (r, fast, gens)) :
    ∀ x ∈ r.zip gens, ∃ f, x.1.2.data.hypoFit = some f ∧ f.pars run.c.m = .ok x.2 := by
  unfold rasters at hr
  obtain ⟨r0, _, hr⟩ := bind_eq_ok.1 hr
  obtain ⟨g0, hg, hr⟩ := bind_eq_ok.1 hr
  obtain ⟨k, _, hr⟩ := bind_eq_ok.1 hr
  obtain ⟨s, _, hr⟩ := bind_eq_ok.1 hr
  obtain ⟨r1, h1, hr⟩ := bind_eq_ok.1 hr
  obtain ⟨⟨_, f0⟩, _, hr⟩ := bind_eq_ok.1 hr
  cases hr
  unfold genHypos at hg
  obtain ⟨g1, hg1, hg⟩ := bind_eq_ok.1 hg
  rw [if_pos hs] at hg
  cases hg
  have hfill : List.Forall₂ (fun e e' => fillEntry k e = .ok e') r0 r := mapM_ok_iff.1 h1
  have hgens : List.Forall₂ (fun e g => genPars run.c.m e = .ok g) r0 gens := mapM_ok_iff.1 hg1
  exact gens_ind hfill hgens

end LimScr
end Verif
