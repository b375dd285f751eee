import Verif.Props.LimitScript
/-!
# C80: the expected bands of `compute_limits`
-/
namespace Verif.Props
open Spec (midP kept toyCls normCdf nBelow nAtOrBelow HasRank IsBand)
open LimScr

/-! ### Keys of the bands -/

theorem bandKey_inj {i j : ℤ} (h : bandKey i = bandKey j) : i = j := by
  unfold bandKey at h
  rw [String.append_assoc, String.append_assoc, String.append_right_inj] at h
  have hl := congrArg String.toList h
  rw [String.toList_append, String.toList_append] at hl
  have hr : ∀ a b : ℕ, (toString a : String).toList = (toString b).toList → a = b := by
    intro a b hab
    have ha := Nat.ofDigitChars_toDigits (b := 10) (n := a) (by norm_num) (by norm_num)
    have hb := Nat.ofDigitChars_toDigits (b := 10) (n := b) (by norm_num) (by norm_num)
    have e : ∀ n : ℕ, (toString n : String).toList = Nat.toDigits 10 n := by
      intro n
      simp [toString]
    rw [e, e] at hab
    rw [← ha, ← hb, hab]
  have key : ∀ k : ℤ, ((if k < 0 then "-" else "+" : String)).toList = if k < 0 then ['-'] else ['+'] := by
    intro k; split <;> rfl
  rw [key, key] at hl
  by_cases hi : i < 0 <;> by_cases hj : j < 0 <;> simp only [hi, hj, if_true, if_false, List.cons_append, List.nil_append] at hl
  · have := hr _ _ (List.cons.inj hl).2
    omega
  · exact absurd (List.cons.inj hl).1 (by decide)
  · exact absurd (List.cons.inj hl).1 (by decide)
  · have := hr _ _ (List.cons.inj hl).2
    omega

theorem rank_of_sorted {l : List ℝ} (k : ℕ) (hk : k < (SampDist.sort l).length) : HasRank l k ((SampDist.sort l)[k]) := by
  have hs := SampDist.sort_sorted l
  have hp := SampDist.sort_perm l
  refine ⟨hp.mem_iff.1 (List.getElem_mem hk), ?_, ?_⟩
  · have := SampDist.countP_lt_getElem hs k hk
    unfold nBelow
    rw [← hp.countP_eq]
    convert this
  · have := SampDist.countP_le_getElem hs k hk
    unfold nAtOrBelow
    rw [← hp.countP_eq]
    refine lt_of_lt_of_le (Nat.lt_succ_self k) ?_
    convert this

theorem HasRank.unique {l : List ℝ} {k : ℕ} {v w : ℝ} (hv : HasRank l k v) (hw : HasRank l k w) : v = w := by
  have one : ∀ {v w : ℝ}, HasRank l k v → HasRank l k w → ¬ v < w := by
    intro v w h1 h2 hlt
    have : nAtOrBelow l v ≤ nBelow l w := by
      unfold nAtOrBelow nBelow
      refine List.countP_mono_left fun x _ hx => ?_
      simp only [decide_eq_true_eq] at hx ⊢
      exact lt_of_le_of_lt hx hlt
    have := h1.2.2
    have := h2.2.1
    omega
  exact le_antisymm (not_lt.1 (one hw hv)) (not_lt.1 (one hv hw))

/-! ### The values of the bands in the raster -/

/-- The values `vals` are stored under the key of the band `i`. -/
def Stored (i : ℤ) (r : SRaster) (vals : List ℝ) : Prop :=
  List.Forall₂ (fun e v => Dict.get? e.2.pvs (bandKey i) = some (.num v)) r vals

theorem addBand_stores (r : SRaster) (i : ℤ) (vals : List ℝ) (hl : vals.length = r.length) : Stored i (addBand r i vals) vals := by
  unfold addBand Stored
  induction r generalizing vals with
  | nil => cases vals <;> simp_all
  | cons e r ih =>
    cases vals with
    | nil => simp at hl
    | cons v vals =>
      have := ih vals (by simpa using hl)
      simp only [List.zipWith_cons_cons, List.length_cons, List.drop_succ_cons, List.cons_append]
      exact .cons (by simp [Dict.get?_set]) this

theorem addBand_keeps (r : SRaster) (i j : ℤ) (hij : j ≠ i) (vals w : List ℝ) (h : Stored i r vals) :
    Stored i (addBand r j w) vals := by
  unfold addBand
  unfold Stored at *
  induction h generalizing w with
  | nil => cases w <;> exact .nil
  | @cons e v r vals he h ih =>
    cases w with
    | nil => exact .cons he h
    | cons x w =>
      simp only [List.zipWith_cons_cons, List.length_cons, List.drop_succ_cons, List.cons_append]
      refine .cons ?_ (ih w)
      dsimp only
      rw [Dict.get?_set_ne _ _ fun hk => hij (bandKey_inj hk), he]

theorem addBand_length (r : SRaster) (i : ℤ) (vals : List ℝ) : (addBand r i vals).length = r.length :=
  (addBand_same r i vals).length_eq.symm

theorem bands_stored (bds : List (ℤ × List ℝ)) (hn : (bds.map Prod.fst).Nodup) (r : SRaster)
    (hl : ∀ b ∈ bds, b.2.length = r.length) :
    (∀ b ∈ bds, Stored b.1 (bds.foldl (fun r x => addBand r x.1 x.2) r) b.2) ∧
      ∀ i vals, i ∉ bds.map Prod.fst → Stored i r vals → Stored i (bds.foldl (fun r x => addBand r x.1 x.2) r) vals := by
  induction bds generalizing r with
  | nil => exact ⟨by simp, fun _ _ _ h => h⟩
  | cons b bds ih =>
    rw [List.map_cons, List.nodup_cons] at hn
    obtain ⟨h1, h2⟩ := ih hn.2 (addBand r b.1 b.2) (fun c hc => by rw [addBand_length]; exact hl c (by simp [hc]))
    simp only [List.foldl_cons]
    refine ⟨?_, ?_⟩
    · intro c hc
      rcases List.mem_cons.1 hc with rfl | hc
      · exact h2 _ _ hn.1 (addBand_stores r _ _ (hl _ (by simp)))
      · exact h1 c hc
    · intro i vals hi hs
      rw [List.map_cons, List.mem_cons, not_or] at hi
      exact h2 i vals hi.2 (addBand_keeps r i b.1 (Ne.symm hi.1) vals b.2 hs)

theorem bandOrders_nodup (b : ℕ) : (bandOrders b).Nodup := by
  unfold bandOrders
  refine List.Nodup.map ?_ List.nodup_range
  intro x y h
  dsimp only at h
  omega

/-! ### The values themselves -/

/-- The CLs band of order `i` at the hypotheses. -/
theorem cls_band {h : List String → ℕ} {s : CLsSamples} {lsb lb : Hypo → List ℝ} {i : ℤ} {b : List ℝ}
    (hb : s.band normCdf h i = .ok b) (hw : ∀ a ∈ s.clsb.hypos, a.WF)
    (hd : ∀ a ∈ s.clsb.hypos, lsb a ≠ [] ∧ lb a ≠ [] ∧ s.clsb.dists.get? h a = some (SampDist.sort (lsb a)) ∧
      s.cl_b.dists.get? h a = some (SampDist.sort (lb a)))
    (hc : ∀ a ∈ s.clsb.hypos, ∀ b ∈ s.clsb.hypos, a.matches h b → a = b) :
    List.Forall₂ (fun a v => IsBand ((lb a).map (toyCls (lsb a) (lb a))) i v) s.clsb.hypos b := by
  unfold CLsSamples.band at hb
  have hne : s.clsb.hypos ≠ [] := by
    intro h0
    rw [if_pos h0] at hb
    cases hb
  rw [if_neg hne] at hb
  dsimp only at hb
  obtain ⟨d, hdd, hb⟩ := bind_eq_ok.1 hb
  obtain ⟨d', hd1, hw', hget, _⟩ := CLsSamples.clsDists_ok h s lsb lb s.clsb.hypos [] (fun _ he => by cases he) hw hd
    (fun a ha b hb hm => by rw [hc a ha b hb hm]; exact ⟨rfl, rfl⟩)
  obtain rfl : d' = d := Except.ok.inj (ε := PyErr) (hd1.symm.trans hdd)
  unfold Samples.band at hb
  refine (with_left (mapM_ok_iff.1 hb)).imp ?_
  rintro a v ⟨ha, hq⟩
  have hg : d'.getItem h a = .ok (SampDist.sort ((lb a).map (CLsSamples.clsVal (lsb a) (lb a)))) :=
    (HDict.getItem_ok h _ _ _).2 (hget a ha)
  have hval : CLsSamples.clsVal (lsb a) (lb a) = toyCls (lsb a) (lb a) := by
    funext x
    have r2 := SampDist.midP_range (lb a) (hd a ha).2.1 x
    unfold CLsSamples.clsVal toyCls
    by_cases h0 : midP (lb a) x = 0
    · rw [if_neg (by rw [h0]; exact lt_irrefl 0), if_pos h0]
    · rw [if_pos (lt_of_le_of_ne r2.1 (Ne.symm h0)), if_neg h0]
  rw [hval] at hg
  have hl : (lb a).map (toyCls (lsb a) (lb a)) ≠ [] := by simpa using (hd a ha).2.1
  generalize (lb a).map (toyCls (lsb a) (lb a)) = l at hg hl
  have hr := SampDist.normCdf_range i
  have hq' := SampDist.quantile_ok normCdf _ (SampDist.sort_ne_nil hl) (normCdf i) hr.1.le hr.2 none
  rw [← SampDist.quantile_nsigmas] at hq'
  simp only [Samples.quantile, hg, bind_ok] at hq
  rw [hq'] at hq
  have hv := Except.ok.inj (ε := PyErr) hq
  subst hv
  have := rank_of_sorted (l := l) ⌊((SampDist.sort l).length : ℝ) * normCdf i⌋₊
    (SampDist.floor_lt (List.length_pos_iff.2 (SampDist.sort_ne_nil hl)) hr.1.le hr.2)
  unfold IsBand
  rw [← SampDist.sort_length l]
  exact this

/-- The value of the scanned POI, and the band of order `i` of the CLs values of the background toys at the point. -/
def BandPoints (r : Raster) (poi : String) (i : ℤ) (v : Option ℝ) (lsb lb : Hypo → List ℝ) (pts : List (ℝ × ℝ)) : Prop :=
  List.Forall₂ (fun e p => Dict.get? e.1 poi = some p.1 ∧
    IsBand ((kept v (lb e.2.data.hypo)).map (toyCls (kept v (lsb e.2.data.hypo)) (kept v (lb e.2.data.hypo)))) i p.2) r pts

theorem orders_of {α : Type} {g : ℤ → Except PyErr α} {l : List ℤ} {out : List (ℤ × α)}
    (h : List.Forall₂ (fun i y => (do return (i, ← g i)) = Except.ok (ε := PyErr) y) l out) : out.map Prod.fst = l := by
  induction h with
  | nil => rfl
  | @cons i y l out hy _ ih =>
    obtain ⟨v, hv, hy⟩ := bind_eq_ok.1 hy
    have := Except.ok.inj (ε := PyErr) hy
    subst this
    rw [List.map_cons, ih]

theorem bandPoints_are {h : List String → ℕ} {s : CLsSamples} {raster : Raster} {r r' : SRaster} {i : ℤ} {poi : String}
    {vals : List ℝ} {pts : List (ℝ × ℝ)} {v : Option ℝ} {lsb lb : Hypo → List ℝ}
    (hr : List.Forall₂ (fun e q => samplingPoint h s e = .ok q) raster r) (hs : List.Forall₂ SameVals r r')
    (hst : Stored i r' vals)
    (hb : List.Forall₂ (fun e x => IsBand ((kept v (lb e.2.data.hypo)).map
      (toyCls (kept v (lsb e.2.data.hypo)) (kept v (lb e.2.data.hypo)))) i x) raster vals)
    (hp : BandPoints raster poi i v lsb lb pts) : PointsAre (bandKey i) poi 0 r' pts := by
  unfold PointsAre
  unfold Stored at hst
  unfold BandPoints at hp
  induction hr generalizing r' vals pts with
  | nil => cases hs; cases hp; exact .nil
  | @cons e q raster r hq _ ih =>
    cases hs with
    | cons hs hss =>
    cases hst with
    | cons h1 h1s =>
    cases hb with
    | cons h2 h2s =>
    cases hp with
    | cons h3 h3s =>
      obtain ⟨pv, sb, b, cls, _, _, _, _, g1, _⟩ := samplingPoint_inv hq
      refine .cons ⟨by rw [hs.1, g1]; exact h3.1, ?_⟩ (ih hss h1s h2s h3s)
      rw [value_num h1, HasRank.unique h2 h3.2]

/-- C80: the bands.  With `--bands b` the results give the limits for the orders -b, ..., b, in this order; the one of order
`i` is the first point where the curve through the bands of order `i` of the CLs values of the background toys takes the
value 0.05. -/
theorem c80_bands (L : SplineLib) (hL : L.Correct) (h : List String → ℕ) (run : Run) (plan : Plan) (s : CLsSamples)
    (lsb lb : Hypo → List ℝ) (ht : ToysAt h plan.raster s lsb lb) (K : List String)
    (hK : ∀ e ∈ plan.raster, Dict.keys e.2.data.hypo = K) (rep : Report) (hf : finish L h run plan s = .ok rep) :
    (run.bands = none → rep.bands = []) ∧ (run.bands = some 0 → rep.bands = []) ∧
    (∀ b, 0 < b → run.bands = some b → rep.bands.map Prod.fst = (List.range (2 * b + 1)).map fun k : ℕ => (k : ℤ) - b) ∧
    ∀ i x, (i, some x) ∈ rep.bands → ∃ poi, (Raster.haveCompatiblePois (plan.raster.map Prod.fst)).head? = some poi ∧
      ∀ pts, BandPoints plan.raster poi i run.truncate lsb lb pts → Scannable pts → FirstCrossing L pts x := by
  obtain ⟨s', r, r', hc, hr, hb, _, _, _, _, _, _, hbl, _⟩ := finish_inv hf
  obtain ⟨hh, hcut⟩ := toysAt_cut ht hc
  cases hbs : run.bands with
  | none =>
    rw [hbs] at hbl
    have := Except.ok.inj (ε := PyErr) hbl
    rw [← this]
    exact ⟨fun _ => rfl, fun _ => rfl, (fun _ _ h => by cases h), (fun _ _ h => by cases h)⟩
  | some n =>
  cases n with
  | zero =>
    rw [hbs] at hbl
    have := Except.ok.inj (ε := PyErr) hbl
    rw [← this]
    exact ⟨fun _ => rfl, fun _ => rfl, (fun b hb h => by cases h; omega), (fun _ _ h => by cases h)⟩
  | succ b =>
  rw [hbs] at hbl hb
  have hbl' := mapM_ok_iff.1 hbl
  unfold bandStage at hb
  obtain ⟨bds, hbds, hb⟩ := bind_eq_ok.1 hb
  have hb' := Except.ok.inj (ε := PyErr) hb
  subst hb'
  have hbds' := mapM_ok_iff.1 hbds
  have hne : ∀ e ∈ plan.raster, kept run.truncate (lsb e.2.data.hypo) ≠ [] ∧ kept run.truncate (lb e.2.data.hypo) ≠ [] := by
    intro e he
    obtain ⟨q, hq⟩ := mapM_ok_mem hr e he
    obtain ⟨pv, sb, b, cls, _, h1, h2, _⟩ := samplingPoint_inv hq
    exact ⟨ne_nil_of_pvErr (hcut e he).1 h1, ne_nil_of_pvErr (hcut e he).2 h2⟩
  have hhyp : s'.clsb.hypos = plan.raster.map fun e => e.2.data.hypo := hh.trans ht.hypos.1
  have hlen : r.length = plan.raster.length := (mapM_ok_iff.1 hr).length_eq.symm
  have hband : ∀ x ∈ bds, List.Forall₂ (fun e v => IsBand ((kept run.truncate (lb e.2.data.hypo)).map
      (toyCls (kept run.truncate (lsb e.2.data.hypo)) (kept run.truncate (lb e.2.data.hypo)))) x.1 v) plan.raster x.2 := by
    intro x hx
    obtain ⟨j, hj, hxj⟩ := Markup.forall₂_mem_right hbds' x hx
    obtain ⟨vals, hvals, hxv⟩ := bind_eq_ok.1 hxj
    have hx' := Except.ok.inj (ε := PyErr) hxv
    subst hx'
    have hmem : ∀ a ∈ s'.clsb.hypos, ∃ e ∈ plan.raster, e.2.data.hypo = a := by
      intro a ha
      rw [hhyp] at ha
      obtain ⟨e, he, rfl⟩ := List.mem_map.1 ha
      exact ⟨e, he, rfl⟩
    have := cls_band (lsb := fun a => kept run.truncate (lsb a)) (lb := fun a => kept run.truncate (lb a)) hvals
      (fun a ha => by obtain ⟨e, he, rfl⟩ := hmem a ha; exact ht.keys e he)
      (fun a ha => by
        obtain ⟨e, he, rfl⟩ := hmem a ha
        exact ⟨(hne e he).1, (hne e he).2, (HDict.getItem_ok h _ _ _).1 (hcut e he).1, (HDict.getItem_ok h _ _ _).1 (hcut e he).2⟩)
      (fun a ha b hb hm => by
        obtain ⟨e, he, rfl⟩ := hmem a ha
        obtain ⟨e', he', rfl⟩ := hmem b hb
        exact Hypo.eq_of_eqv_keys (ht.keys e he) ((hK e he).trans (hK e' he').symm) hm.2)
    rw [hhyp, List.forall₂_map_left_iff] at this
    exact this
  have horders : bds.map Prod.fst = bandOrders (b + 1) := orders_of hbds'
  have hst := (bands_stored bds (by rw [horders]; exact bandOrders_nodup _) r (fun x hx => by
    rw [hlen]; exact (hband x hx).length_eq.symm)).1
  have horders' : rep.bands.map Prod.fst = bandOrders (b + 1) := orders_of hbl'
  refine ⟨(fun h => by cases h), (fun h => by cases h), (fun b' _ h => by cases h; rw [horders']; rfl), ?_⟩
  intro i x hx
  obtain ⟨j, hj, hxj⟩ := Markup.forall₂_mem_right hbl' _ hx
  obtain ⟨o, ho, hxo⟩ := bind_eq_ok.1 hxj
  cases hxo
  obtain ⟨poi, hpoi, hlim⟩ := upper_inv ho
  refine ⟨poi, hpoi, fun pts hp hs => firstCrossing_of_limit hL ?_ hs hlim⟩
  obtain ⟨y, hy, hyi⟩ := List.mem_map.1 (horders ▸ hj)
  subst hyi
  exact bandPoints_are (mapM_ok_iff.1 hr) (addBands_same bds r) (hst y hy) (hband y hy) hp

/-- The hypotheses hold for the scan with four points and 200 toys of the other theorems; with `--bands` the toys of all
points determine points for each order. -/
example (h : List String → ℕ) : ToysAt h LimDemo.raster (LimDemo.samples h) LimDemo.lsb LimDemo.lb ∧
    (∀ e ∈ LimDemo.raster, Dict.keys e.2.data.hypo = ["mu"]) ∧
    ∀ i : ℤ, IsBand ((kept none (LimDemo.lb [("mu", 0)])).map (fun _ => (1 : ℝ))) i 1 := by
  refine ⟨demo_toysAt h [], by simp [LimDemo.raster, LimDemo.entry, Dict.keys], fun i => ?_⟩
  have hkeep : kept none (LimDemo.lb [("mu", 0)]) = LimDemo.lb [("mu", 0)] := by simp [kept]
  have hlen : (LimDemo.lb [("mu", 0)]).length = 200 := by unfold LimDemo.lb; rw [List.length_replicate]
  have hmap : (LimDemo.lb [("mu", 0)]).map (fun _ => (1 : ℝ)) = List.replicate 200 1 := by rw [List.map_const', hlen]
  rw [hkeep, hmap]
  have gen : ∀ n : ℕ, 0 < n → IsBand (List.replicate n 1) i 1 := by
    intro n hn
    have hr := SampDist.normCdf_range i
    refine ⟨by simp; omega, ?_, ?_⟩
    · unfold nBelow
      rw [List.countP_eq_zero.2 (by intro x hx; rw [List.eq_of_mem_replicate hx]; simp)]
      exact Nat.zero_le _
    · unfold nAtOrBelow
      rw [List.countP_eq_length.2 (by intro x hx; rw [List.eq_of_mem_replicate hx]; simp), List.length_replicate]
      exact SampDist.floor_lt hn hr.1.le hr.2
  exact gen 200 (by norm_num)

end Verif.Props
