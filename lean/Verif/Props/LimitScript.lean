import Verif.Lemmas.LimitScript
import Verif.Lemmas.LockJobs
import Verif.Lemmas.LimitsTotal
import Verif.Lemmas.LimitDemo
import Verif.Lemmas.LimitPrep
import Verif.Lemmas.LockRun
import Verif.Props.FitData
import Verif.Props.OptiSampler
/-!
# C80: `compute_limits` from the fits and the toys to the limits
-/
namespace Verif.Props
open Spec (midP kept toyCls normCdf qtPv qmutOf)
open LimScr

/-- `x` is within the scanned range, the curve through the points takes the value 0.05 there, and (if it does so finitely
often) nowhere before. -/
def FirstCrossing (L : SplineLib) (pts : List (ℝ × ℝ)) (x : ℝ) : Prop :=
  Between pts x ∧ logCurve L pts (1 - 95/100) x = 1 - 95/100 ∧
    ({y | Between (positive pts) y ∧ logCurve L pts (1 - 95/100) y = 1 - 95/100}.Finite →
      ∀ y, Between (positive pts) y → y < x → logCurve L pts (1 - 95/100) y ≠ 1 - 95/100)

/-- The points can carry a cubic spline in log scale. -/
def Scannable (pts : List (ℝ × ℝ)) : Prop :=
  4 ≤ (positive pts).length ∧ ((positive pts).map Prod.fst).Pairwise (· < ·)

theorem firstCrossing_of_limit {L : SplineLib} (hL : L.Correct) {key poi : String} {r : SRaster} {pts : List (ℝ × ℝ)}
    (hp : PointsAre key poi 0 r pts) (hs : Scannable pts) {cl x : ℝ} (h : Scan.limit L key poi r cl = .ok (some x)) :
    FirstCrossing L pts x :=
  (c54_limit_is_crossing L hL key poi r pts hp hs.1 hs.2).2.2 x ((c54_cl_ignored L key poi r cl).symm.trans h)

/-- The samples at the points of the raster are the toys `lsb` (for signal and background) and `lb` (background). -/
structure ToysAt (h : List String → ℕ) (r : Raster) (s : CLsSamples) (lsb lb : Hypo → List ℝ) : Prop where
  hypos : s.clsb.hypos = r.map (fun e => e.2.data.hypo) ∧ s.cl_b.hypos = r.map (fun e => e.2.data.hypo)
  keys : ∀ e ∈ r, (Dict.keys e.2.data.hypo).Nodup
  stored : (∀ e ∈ s.clsb.dists, (Dict.keys e.1).Nodup) ∧ ∀ e ∈ s.cl_b.dists, (Dict.keys e.1).Nodup
  toys : ∀ e ∈ r, s.clsb.dists.getItem h e.2.data.hypo = .ok (SampDist.sort (lsb e.2.data.hypo)) ∧
    s.cl_b.dists.getItem h e.2.data.hypo = .ok (SampDist.sort (lb e.2.data.hypo))

/-- The value of the scanned POI, and a function of the toys and of the asymptotic p-value at the point. -/
def ToyPoints (r : Raster) (poi : String) (f : List ℝ → List ℝ → ℝ → ℝ) (v : Option ℝ) (lsb lb : Hypo → List ℝ)
    (pts : List (ℝ × ℝ)) : Prop :=
  List.Forall₂ (fun e p => Dict.get? e.1 poi = some p.1 ∧ ∃ pv, Dict.get? e.2.data.pvs "pv" = some pv ∧
    p.2 = f (kept v (lsb e.2.data.hypo)) (kept v (lb e.2.data.hypo)) pv) r pts

theorem toysAt_cut {h : List String → ℕ} {r : Raster} {s s' : CLsSamples} {lsb lb : Hypo → List ℝ} {v : Option ℝ}
    (ht : ToysAt h r s lsb lb) (hc : cutStage h v s = .ok s') :
    s'.clsb.hypos = s.clsb.hypos ∧ ∀ e ∈ r,
      s'.clsb.dists.getItem h e.2.data.hypo = .ok (SampDist.sort (kept v (lsb e.2.data.hypo))) ∧
      s'.cl_b.dists.getItem h e.2.data.hypo = .ok (SampDist.sort (kept v (lb e.2.data.hypo))) := by
  have hw : ∀ a ∈ r.map (fun e => e.2.data.hypo), a.WF := by
    intro a ha
    obtain ⟨e, he, rfl⟩ := List.mem_map.1 ha
    exact ht.keys e he
  obtain ⟨h1, _, g1, g2⟩ := cutStage_get hc ht.stored.1 ht.stored.2 (by rw [ht.hypos.1]; exact hw)
    (by rw [ht.hypos.2]; exact hw)
  refine ⟨h1, fun e he => ⟨g1 _ ?_ _ (ht.toys e he).1, g2 _ ?_ _ (ht.toys e he).2⟩⟩
  · rw [ht.hypos.1]; exact List.mem_map.2 ⟨e, he, rfl⟩
  · rw [ht.hypos.2]; exact List.mem_map.2 ⟨e, he, rfl⟩

theorem ne_nil_of_pvErr {h : List String → ℕ} {s : Samples} {a : Hypo} {x : ℝ} {o : ℝ × ℝ} {l : List ℝ}
    (hg : s.dists.getItem h a = .ok (SampDist.sort l)) (ho : s.pvErr h a x = .ok o) : l ≠ [] := by
  rintro rfl
  have hl : SampDist.sort [] = [] := List.eq_nil_of_length_eq_zero (by simp)
  simp [Samples.pvErr, hg, SampDist.pvErr, hl] at ho

/-- C80: the CLs limit.  If the samples at the points of the raster are toys, the CLs limit of the results file is the
first point where the curve through the CLs values of the (kept) toys takes the value 0.05. -/
theorem c80_sampling_cls (L : SplineLib) (hL : L.Correct) (h : List String → ℕ) (run : Run) (plan : Plan) (s : CLsSamples)
    (lsb lb : Hypo → List ℝ) (ht : ToysAt h plan.raster s lsb lb) (rep : Report) (hf : finish L h run plan s = .ok rep)
    (x xu xd : ℝ) (hx : rep.samplingCls = some (x, xu, xd)) :
    ∃ poi, (Raster.haveCompatiblePois (plan.raster.map Prod.fst)).head? = some poi ∧
      ∀ pts, ToyPoints plan.raster poi toyCls run.truncate lsb lb pts → Scannable pts → FirstCrossing L pts x := by
  obtain ⟨s', r, r', hc, hr, hb, _, _, _, _, _, h6, _⟩ := finish_inv hf
  obtain ⟨poi, hpoi, hlim⟩ := upperErr_inv h6
  rw [hx] at hlim
  refine ⟨poi, hpoi, fun pts hp hs => ?_⟩
  refine firstCrossing_of_limit hL (scanPoints hr (bandStage_same hb) (by decide) ?_) hs
    (Scan.limitErr_limit _ _ _ _ _ _ _ _ hlim)
  have hcut := (toysAt_cut ht hc).2
  refine (with_left hp).imp ?_
  rintro e p ⟨he, h1, pv, hpv, h2⟩
  refine ⟨h1, fun q hq => ?_⟩
  obtain ⟨pv', sb, b, cls, hpv', hsb, hb', hcls, _, _, _, g6, _⟩ := samplingPoint_inv hq
  rw [hpv] at hpv'
  cases hpv'
  refine ⟨_, g6, ?_⟩
  rintro y (hy | ⟨d, hy⟩)
  · cases hy
  · cases hy
    obtain ⟨c1, c2⟩ := hcut e he
    rw [h2, cls_value h s' _ _ _ (ne_nil_of_pvErr c1 hsb) (ne_nil_of_pvErr c2 hb') c1 c2 _ _ hcls]

/-- C80: the same for the CLs+b limit: the curve goes through the mid-p-values of the signal-plus-background toys. -/
theorem c80_sampling_clsb (L : SplineLib) (hL : L.Correct) (h : List String → ℕ) (run : Run) (plan : Plan) (s : CLsSamples)
    (lsb lb : Hypo → List ℝ) (ht : ToysAt h plan.raster s lsb lb) (rep : Report) (hf : finish L h run plan s = .ok rep)
    (x xu xd : ℝ) (hx : rep.samplingClsb = some (x, xu, xd)) :
    ∃ poi, (Raster.haveCompatiblePois (plan.raster.map Prod.fst)).head? = some poi ∧
      ∀ pts, ToyPoints plan.raster poi (fun sb _ pv => midP sb pv) run.truncate lsb lb pts → Scannable pts →
        FirstCrossing L pts x := by
  obtain ⟨s', r, r', hc, hr, hb, _, _, h3, _⟩ := finish_inv hf
  obtain ⟨poi, hpoi, hlim⟩ := upperErr_inv h3
  rw [hx] at hlim
  refine ⟨poi, hpoi, fun pts hp hs => ?_⟩
  refine firstCrossing_of_limit hL (scanPoints hr (bandStage_same hb) (by decide) ?_) hs
    (Scan.limitErr_limit _ _ _ _ _ _ _ _ hlim)
  have hcut := (toysAt_cut ht hc).2
  refine (with_left hp).imp ?_
  rintro e p ⟨he, h1, pv, hpv, h2⟩
  refine ⟨h1, fun q hq => ?_⟩
  obtain ⟨pv', sb, b, cls, hpv', hsb, _, _, _, g4, _⟩ := samplingPoint_inv hq
  rw [hpv] at hpv'
  cases hpv'
  refine ⟨_, g4, ?_⟩
  rintro y (hy | ⟨d, hy⟩)
  · cases hy
  · cases hy
    obtain ⟨c1, _⟩ := hcut e he
    obtain ⟨er, her, _⟩ := SampDist.pvErr_init _ (ne_nil_of_pvErr c1 hsb) pv
    have : sb = (midP (kept run.truncate (lsb e.2.data.hypo)) pv, er) := by
      simp only [Samples.pvErr, c1, bind_ok] at hsb
      rw [her] at hsb
      exact (Except.ok.inj (ε := PyErr) hsb).symm
    rw [h2, this]

/-- The value of the POI and the stored p-value at the points. -/
def StoredPoints (r : Raster) (poi key : String) (pts : List (ℝ × ℝ)) : Prop :=
  List.Forall₂ (fun e p => Dict.get? e.1 poi = some p.1 ∧ Dict.get? e.2.data.pvs key = some p.2) r pts

theorem fastPoints {r : Raster} {poi key : String} {pts : List (ℝ × ℝ)} (h : StoredPoints r poi key pts) :
    PointsAre key poi 0 (SRaster.ofRaster r) pts := by
  unfold StoredPoints at h
  unfold PointsAre SRaster.ofRaster
  rw [List.forall₂_map_left_iff]
  refine h.imp fun e p hp => ⟨hp.1, value_num ?_⟩
  dsimp only
  rw [get?_num, hp.2]
  rfl

/-- C80: the asymptotic limits.  They are the first points where the curves through the asymptotic p-values (of the fits in
the file, and of the recomputed fits) take the value 0.05; toys play no role. -/
theorem c80_asymptotic (L : SplineLib) (hL : L.Correct) (h : List String → ℕ) (run : Run) (plan : Plan) (s : CLsSamples)
    (rep : Report) (hf : finish L h run plan s = .ok rep) :
    (∃ poi, (Raster.haveCompatiblePois (plan.raster.map Prod.fst)).head? = some poi ∧
      (∀ x pts, rep.asyCls = some x → StoredPoints plan.raster poi "cls" pts → Scannable pts → FirstCrossing L pts x) ∧
      (∀ x pts, rep.asyClsb = some x → StoredPoints plan.raster poi "pv" pts → Scannable pts → FirstCrossing L pts x)) ∧
    (∃ poi, (Raster.haveCompatiblePois (plan.faster.map Prod.fst)).head? = some poi ∧
      (∀ x pts, rep.asyClsFast = some x → StoredPoints plan.faster poi "cls" pts → Scannable pts → FirstCrossing L pts x) ∧
      (∀ x pts, rep.asyClsbFast = some x → StoredPoints plan.faster poi "pv" pts → Scannable pts →
        FirstCrossing L pts x)) := by
  obtain ⟨s', r, r', hc, hr, hb, h1, h2, _, h4, h5, _⟩ := finish_inv hf
  obtain ⟨poi, hpoi, l1⟩ := upper_inv h1
  obtain ⟨poi', hpoi', l4⟩ := upper_inv h4
  obtain ⟨fpoi, hfpoi, l2⟩ := upper_inv h2
  obtain ⟨fpoi', hfpoi', l5⟩ := upper_inv h5
  rw [hpoi] at hpoi'
  cases hpoi'
  rw [hfpoi] at hfpoi'
  cases hfpoi'
  refine ⟨⟨poi, hpoi, fun x pts hx hp hs => ?_, fun x pts hx hp hs => ?_⟩,
    ⟨fpoi, hfpoi, fun x pts hx hp hs => ?_, fun x pts hx hp hs => ?_⟩⟩
  · rw [hx] at l4
    refine firstCrossing_of_limit hL (scanPoints hr (bandStage_same hb) (by decide) ?_) hs l4
    refine hp.imp fun e p hp => ⟨hp.1, fun q hq => ?_⟩
    obtain ⟨pv', sb, b, cls, _, _, _, _, _, _, _, _, _, g8⟩ := samplingPoint_inv hq
    refine ⟨_, g8 _ hp.2, ?_⟩
    rintro y (hy | ⟨d, hy⟩)
    · cases hy; rfl
    · cases hy
  · rw [hx] at l1
    refine firstCrossing_of_limit hL (scanPoints hr (bandStage_same hb) (by decide) ?_) hs l1
    refine hp.imp fun e p hp => ⟨hp.1, fun q hq => ?_⟩
    obtain ⟨pv', sb, b, cls, hpv', _, _, _, _, _, _, _, g7, _⟩ := samplingPoint_inv hq
    rw [hp.2] at hpv'
    cases hpv'
    refine ⟨_, g7, ?_⟩
    rintro y (hy | ⟨d, hy⟩)
    · cases hy; rfl
    · cases hy
  · rw [hx] at l5
    exact firstCrossing_of_limit hL (fastPoints hp) hs l5
  · rw [hx] at l2
    exact firstCrossing_of_limit hL (fastPoints hp) hs l2

/-! ### The toys of concurrent jobs -/

theorem lookup_dists {h : List String → ℕ} {K : List String} (hK : K.Nodup) {l : List (Hypo × List ℝ)}
    (hl : ∀ kv ∈ l, Dict.keys kv.1 = K) {a : Hypo} (ha : Dict.keys a = K) {v : List ℝ}
    (hg : (rasterOf h l).getItem h a = .ok v) : (a, v) ∈ l := by
  rw [HDict.getItem_ok, c35_lookup h K hK l hl a ha] at hg
  unfold lastStored at hg
  obtain ⟨kv, hf, hv⟩ := Option.map_eq_some_iff.1 hg
  have hm : kv ∈ l := by simpa using List.mem_of_find?_eq_some hf
  have hsame : SameHypo kv.1 a := by simpa using List.find?_some hf
  have hkv := hl kv hm
  have heq : kv.1 = a := Hypo.eq_of_eqv_keys (by unfold Hypo.WF; rw [hkv]; exact hK) (hkv.trans ha.symm)
    ((Hypo.eqv_iff (by unfold Hypo.WF; rw [hkv]; exact hK) (by unfold Hypo.WF; rw [ha]; exact hK)).2 hsame)
  have : kv = (a, v) := Prod.ext heq hv
  rw [← this]; exact hm

theorem wf_rasterOf {V : Type} (h : List String → ℕ) (l : List (Hypo × V)) (hl : ∀ kv ∈ l, kv.1.WF) :
    (rasterOf h l).WF := by
  unfold rasterOf
  have : ∀ (l : List (Hypo × V)) (d : HDict V), d.WF → (∀ kv ∈ l, kv.1.WF) →
      (l.foldl (fun d kv => HDict.set h d kv.1 kv.2) d).WF := by
    intro l
    induction l with
    | nil => intro d hd _; exact hd
    | cons a l ih =>
      intro d hd hl
      exact ih _ (HDict.wf_set h hd (hl a (by simp)) _) (fun kv hkv => hl kv (by simp [hkv]))
  exact this l [] (fun kv h => by cases h) hl

/-- C80: limits from concurrent jobs.  Any number of jobs share the work for a scan, are killed and restarted, break locks or
not: if all of them ask for the same number `N` of toys, sort them before saving (the default) and no two of their hypotheses
have the same file name, every sample that a job holds, loaded or generated, consists of `N` toys generated for this very
hypothesis. -/
theorem c80_jobs (E : Lock.Env) (N : ℕ) (S : Hypo → Prop) (hGen : ∀ a s, E.Gen N a s → s.length = N)
    (hinj : ∀ a b, S a → S b → E.fname a = E.fname b → a = b) (σ : Lock.Sys) (h : Lock.StepsOf E N S Lock.Sys.init σ)
    (pid : ℕ) (p : Lock.Proc) (hp : σ.procs pid = some p) (a : Hypo) (l : List ℝ) (hl : (a, l) ∈ p.dists) :
    ∃ s, E.Gen N a s ∧ l = SampDist.sort s :=
  ((Lock.jobs_inv hGen hinj h).2.2 pid p hp).held a l hl

/-- C80: from the jobs to the CLs limit.  A job that, after any such execution of the two steps (`Esb` for the
signal-plus-background samples, `Eb` for the background ones), gets a CLs limit from the samples it holds, gets the first
point where the curve through the CLs values of toys takes the value 0.05; at every point of the raster, these are `N` toys
generated for its hypothesis by each sampler.  If the samples of any point are missing, no limit is given. -/
theorem c80_limit_from_jobs (L : SplineLib) (hL : L.Correct) (h : List String → ℕ) (run : Run) (plan : Plan)
    (Esb Eb : Lock.Env) (N : ℕ) (S : Hypo → Prop) (hGsb : ∀ a s, Esb.Gen N a s → s.length = N)
    (hGb : ∀ a s, Eb.Gen N a s → s.length = N) (hisb : ∀ a b, S a → S b → Esb.fname a = Esb.fname b → a = b)
    (hib : ∀ a b, S a → S b → Eb.fname a = Eb.fname b → a = b) (K : List String) (hK : K.Nodup)
    (hkeys : ∀ e ∈ plan.raster, Dict.keys e.2.data.hypo = K)
    (σsb σb : Lock.Sys) (hsb : Lock.StepsOf Esb N S Lock.Sys.init σsb) (hb : Lock.StepsOf Eb N S Lock.Sys.init σb)
    (i j : ℕ) (psb pb : Lock.Proc) (hpsb : σsb.procs i = some psb) (hpb : σb.procs j = some pb)
    (hdsb : ∀ e ∈ psb.dists, Dict.keys e.1 = K) (hdb : ∀ e ∈ pb.dists, Dict.keys e.1 = K)
    (hypos : List Hypo) (hh : hypos = plan.raster.map (fun e => e.2.data.hypo))
    (rep : Report)
    (hf : finish L h run plan ⟨⟨hypos, rasterOf h psb.dists⟩, ⟨hypos, rasterOf h pb.dists⟩⟩ = .ok rep) (x xu xd : ℝ)
    (hx : rep.samplingCls = some (x, xu, xd)) :
    ∃ lsb lb : Hypo → List ℝ,
      (∀ e ∈ plan.raster, Esb.Gen N e.2.data.hypo (lsb e.2.data.hypo) ∧ Eb.Gen N e.2.data.hypo (lb e.2.data.hypo)) ∧
      ∃ poi, (Raster.haveCompatiblePois (plan.raster.map Prod.fst)).head? = some poi ∧
        ∀ pts, ToyPoints plan.raster poi toyCls run.truncate lsb lb pts → Scannable pts → FirstCrossing L pts x := by
  subst hh
  have hwf : ∀ (l : List (Hypo × List ℝ)), (∀ e ∈ l, Dict.keys e.1 = K) → (rasterOf h l).WF :=
    fun l hl => wf_rasterOf h l (fun e he => by unfold Hypo.WF; rw [hl e he]; exact hK)
  have hww : ∀ e ∈ plan.raster, e.2.data.hypo.WF := fun e he => by unfold Hypo.WF; rw [hkeys e he]; exact hK
  have hw : ∀ a ∈ plan.raster.map (fun e => e.2.data.hypo), a.WF := by
    intro a ha
    obtain ⟨e, he, rfl⟩ := List.mem_map.1 ha
    exact hww e he
  have key : ∀ e ∈ plan.raster, ∃ t : List ℝ × List ℝ, (Esb.Gen N e.2.data.hypo t.1 ∧ Eb.Gen N e.2.data.hypo t.2) ∧
      (rasterOf h psb.dists).getItem h e.2.data.hypo = .ok (SampDist.sort t.1) ∧
      (rasterOf h pb.dists).getItem h e.2.data.hypo = .ok (SampDist.sort t.2) := by
    intro e he
    obtain ⟨v1, v2, g1, g2⟩ : ∃ v1 v2, (rasterOf h psb.dists).getItem h e.2.data.hypo = .ok v1 ∧
        (rasterOf h pb.dists).getItem h e.2.data.hypo = .ok v2 := 
      finish_has hf (hwf _ hdsb) (hwf _ hdb) hw hw e he (hww e he)
    have hke := hkeys e he
    obtain ⟨s1, k1, rfl⟩ := c80_jobs Esb N S hGsb hisb σsb hsb i psb hpsb _ _ (lookup_dists hK hdsb hke g1)
    obtain ⟨s2, k2, rfl⟩ := c80_jobs Eb N S hGb hib σb hb j pb hpb _ _ (lookup_dists hK hdb hke g2)
    exact ⟨(s1, s2), ⟨k1, k2⟩, g1, g2⟩
  choose! t ht using (show ∀ a : Hypo, (∃ e ∈ plan.raster, e.2.data.hypo = a) →
      ∃ t : List ℝ × List ℝ, (Esb.Gen N a t.1 ∧ Eb.Gen N a t.2) ∧
      (rasterOf h psb.dists).getItem h a = .ok (SampDist.sort t.1) ∧
      (rasterOf h pb.dists).getItem h a = .ok (SampDist.sort t.2) from by
    rintro a ⟨e, he, rfl⟩; exact key e he)
  refine ⟨fun a => (t a).1, fun a => (t a).2, fun e he => (ht _ ⟨e, he, rfl⟩).1, ?_⟩
  refine c80_sampling_cls L hL h run plan
    ⟨⟨plan.raster.map (fun e => e.2.data.hypo), rasterOf h psb.dists⟩,
      ⟨plan.raster.map (fun e => e.2.data.hypo), rasterOf h pb.dists⟩⟩ _ _ ⟨⟨rfl, rfl⟩, fun e he => by rw [hkeys e he]; exact hK,
    ⟨hwf _ hdsb, hwf _ hdb⟩, fun e he => (ht _ ⟨e, he, rfl⟩).2⟩ rep hf x xu xd hx

/-! ### The whole script -/

/-- C80: what a run leaves behind.  The results file is written only by a run that succeeds; it then holds what was computed
from the samples.  A run that fails, and a run without toys, leave it as it was. -/
theorem c80_results_file (B : Libs) (h : List String → ℕ) (run : Run)
    (out : List (Except PyErr (List ℝ) × Except PyErr (List ℝ))) (d d' : Disk) (o : Except PyErr Unit)
    (hx : exec B h run out d = (d', o)) :
    (run.ntoys = 0 ∨ o ≠ .ok () → d'.results = d.results) ∧ (run.ntoys = 0 → d' = d) ∧
    (run.ntoys ≠ 0 → o = .ok () → ∃ plan sb b rep, prepare h B.cmd run = .ok plan ∧ plan.hypos ≠ [] ∧
      finish B.spl h run plan ⟨⟨plan.hypos, sb⟩, ⟨plan.hypos, b⟩⟩ = .ok rep ∧ d'.results = some rep) := by
  unfold exec at hx
  cases hr : rasters h B.cmd run with
  | error e =>
    rw [hr] at hx
    cases hx
    exact ⟨fun _ => rfl, fun _ => rfl, fun _ h => by cases h⟩
  | ok r =>
    rw [hr] at hx
    dsimp only at hx
    by_cases hn : run.ntoys = 0
    · rw [if_pos hn] at hx
      cases hx
      exact ⟨fun _ => rfl, fun _ => rfl, fun h => absurd hn h⟩
    · rw [if_neg hn] at hx
      cases hp : prepare h B.cmd run with
      | error e =>
        rw [hp] at hx
        cases hx
        exact ⟨fun _ => rfl, fun h => absurd h hn, fun _ h => by cases h⟩
      | ok plan =>
        rw [hp] at hx
        dsimp only at hx
        cases hs : sampleAndFinish B h run plan out d.dir with
        | mk dd ro =>
          rw [hs] at hx
          cases ro with
          | error e =>
            cases hx
            exact ⟨fun _ => rfl, fun h => absurd h hn, fun _ h => by cases h⟩
          | ok rep =>
            cases hx
            refine ⟨fun h => ?_, fun h => absurd h hn, fun _ _ => ?_⟩
            · rcases h with h | h
              · exact absurd h hn
              · exact absurd rfl h
            · unfold sampleAndFinish at hs
              by_cases hh : plan.hypos = []
              · rw [if_pos hh] at hs; cases hs
              · rw [if_neg hh] at hs
                split at hs
                · cases hs
                · rename_i d1 sb _
                  split at hs
                  · cases hs
                  · rename_i d2 b _
                    have := congrArg Prod.snd hs
                    exact ⟨plan, sb, b, rep, rfl, hh, this, rfl⟩

/-- C80: generation.  At every point of the raster, the signal-plus-background toys are generated at the parameters of the fit
of the file with the POIs fixed, the background ones at the same parameters with the first POI of the model at 0; both are
tested for the hypothesis of the point, with the statistic that is bounded at 0, whichever one is selected. -/
theorem c80_generation (h : List String → ℕ) (L : Cmd.Lib) (run : Run) (plan : Plan) (hs : run.sethypo = [])
    (hp : prepare h L run = .ok plan) (s : Smp × Smp) (hm : s ∈ plan.samplers) :
    ∃ e ∈ plan.raster, ∃ f p0 n0 rest A, e.2.data.hypoFit = some f ∧ f.pars run.c.m = .ok s.1.cfg.genHypo ∧
      run.c.m.pois = n0 :: rest ∧ s.1.cfg.genHypo.set run.c.m n0 0 false = .ok p0 ∧ s.2.cfg.genHypo = p0 ∧
      s.1.cfg.testHypo = e.2.data.hypo ∧ s.2.cfg.testHypo = e.2.data.hypo ∧
      s.1.cfg.tmuAmu = some A ∧ s.1.cfg.tmuA0 = some A ∧ s.2.cfg.tmuAmu = some A ∧ s.2.cfg.tmuA0 = some A ∧
      s.1.cfg.bounds = run.genBounds ∧ s.2.cfg.bounds = run.genBounds := by
  obtain ⟨gens, hr, hf⟩ := prepare_inv hp
  obtain ⟨x, hx, hsx⟩ := Markup.forall₂_mem_right hf s hm
  obtain ⟨a, n0, g0, f, p, b, _, hn, hg, _, _, rfl⟩ := samplersAt_inv hsx
  obtain ⟨⟨e, fe⟩, g⟩ := x
  have hgen := gens_of hs hr (e, g) (zip_drop hx)
  obtain ⟨ff, h1, h2⟩ := hgen
  have he : e ∈ plan.raster := (List.of_mem_zip (List.of_mem_zip hx).1).1
  have hpois : ∃ rest, run.c.m.pois = n0 :: rest := by
    unfold poi0 at hn
    cases hq : run.c.m.pois with
    | nil => rw [hq] at hn; cases hn
    | cons c l => rw [hq] at hn; cases hn; exact ⟨l, rfl⟩
  obtain ⟨rest, hpois⟩ := hpois
  exact ⟨e, he, ff, g0, n0, rest, a, h1, h2, hpois, hg, rfl, rfl, rfl, rfl, rfl, rfl, rfl, rfl, rfl⟩

/-- C80 finding: no toy is ever generated.  The samplers prepared by the script cannot compute a single toy (F88). -/
theorem c80_samplers_fail (h : List String → ℕ) (L : Cmd.Lib) (run : Run) (plan : Plan)
    (hp : prepare h L run = .ok plan) (hn : 0 < run.ntoys) (s : Smp × Smp) (hm : s ∈ plan.samplers)
    (o : Except PyErr (List ℝ)) (ho : Outcome run.c run.ntoys s.1 o ∨ Outcome run.c run.ntoys s.2 o) :
    ∃ e, o = .error e := by
  obtain ⟨gens, hr, hf⟩ := prepare_inv hp
  obtain ⟨x, hx, hsx⟩ := Markup.forall₂_mem_right hf s hm
  obtain ⟨a, n0, g0, f, p, b, _, hn0, hg, _, hb, rfl⟩ := samplersAt_inv hsx
  have hpois : run.c.m.pois ≠ [] := by
    intro hq
    unfold poi0 at hn0
    rw [hq] at hn0
    cases hn0
  have key : ∀ (cfg : OptiSampler.Cfg) (dat : ℕ → SampEnv) (st : ℕ → OptiSampler.St) (fuel : ℕ),
      Sampler.generate (fun i => do
        let (_, v) ← OptiSampler.computeAny run.c cfg b (dat i) (st i)
        return v) 20 run.ntoys fuel = some o → ∃ e, o = .error e := by
    intro cfg dat st fuel hgen
    refine toys_error ?_ hn hgen
    intro i v hv
    obtain ⟨y, hy, _⟩ := bind_eq_ok.1 hv
    cases hq : setHypo run.c.m cfg.testHypo cfg.genHypo with
    | error e =>
      unfold OptiSampler.computeAny at hy
      rw [hq] at hy
      cases hy
    | ok q =>
      rw [(c76_ranges_break run.c cfg f p b dat (st i) q 0 0 hpois hb hq).1 (dat i)] at hy
      cases hy
  rcases ho with ⟨dat, st, fuel, ho⟩ | ⟨dat, st, fuel, ho⟩
  · exact key _ dat st fuel ho
  · exact key _ dat st fuel ho

/-- One use of the script: library and output name, what it reads, and the outcomes of its samplers. -/
structure Use where
  libs : Libs
  run : Run
  out : List (Except PyErr (List ℝ) × Except PyErr (List ℝ))

/-- The outcomes are those of the samplers prepared, for some pseudo-data. -/
def Use.Real (h : List String → ℕ) (u : Use) : Prop :=
  ∀ plan, prepare h u.libs.cmd u.run = .ok plan →
    List.Forall₂ (fun s o => Outcome u.run.c u.run.ntoys s.1 o.1 ∧ Outcome u.run.c u.run.ntoys s.2 o.2) plan.samplers u.out

/-- The disk after a sequence of uses. -/
noncomputable def after (h : List String → ℕ) (us : List Use) (d : Disk) : Disk :=
  us.foldl (fun d u => (exec u.libs h u.run u.out d).1) d

/-- C80 finding F100: starting from a directory without samples, no sequence of runs, with whatever options, models, data and
random numbers, ever produces samples or a results file; every run that asks for toys ends with an exception. -/
theorem c80_never (h : List String → ℕ) (us : List Use) (hr : ∀ u ∈ us, u.Real h) (d : Disk)
    (hd : ∀ f, d.dir.files f = none) :
    (after h us d).results = d.results ∧ (∀ f, (after h us d).dir.files f = none) ∧
    ∀ u : Use, u.Real h → u.run.ntoys ≠ 0 → ∃ e, (exec u.libs h u.run u.out (after h us d)).2 = .error e := by
  have one : ∀ (u : Use) (d : Disk), u.Real h → (∀ f, d.dir.files f = none) →
      (exec u.libs h u.run u.out d).1.results = d.results ∧
      (∀ f, (exec u.libs h u.run u.out d).1.dir.files f = none) ∧
      (u.run.ntoys ≠ 0 → ∃ e, (exec u.libs h u.run u.out d).2 = .error e) := by
    intro u d hu hd
    unfold exec
    cases hq : rasters h u.libs.cmd u.run with
    | error e => exact ⟨rfl, hd, fun _ => ⟨e, rfl⟩⟩
    | ok r =>
      dsimp only
      by_cases hn : u.run.ntoys = 0
      · rw [if_pos hn]; exact ⟨rfl, hd, fun h => absurd hn h⟩
      · rw [if_neg hn]
        cases hp : prepare h u.libs.cmd u.run with
        | error e => exact ⟨rfl, hd, fun _ => ⟨e, rfl⟩⟩
        | ok plan =>
          dsimp only
          have hout := hu plan hp
          have hbad : ∀ o ∈ u.out, (∃ e, o.1 = .error e) ∧ ∃ e, o.2 = .error e := by
            intro o ho
            obtain ⟨s, hs, h1, h2⟩ := Markup.forall₂_mem_right hout o ho
            exact ⟨c80_samplers_fail h _ _ plan hp (Nat.pos_of_ne_zero hn) s hs o.1 (Or.inl h1),
              c80_samplers_fail h _ _ plan hp (Nat.pos_of_ne_zero hn) s hs o.2 (Or.inr h2)⟩
          have hz1 : ∀ x ∈ plan.hypos.zip (u.out.map Prod.fst), ∃ e, x.2 = .error e := by
            intro x hx
            obtain ⟨o, ho, ho'⟩ := List.mem_map.1 (List.of_mem_zip (a := x.1) (b := x.2) hx).2
            rw [← ho']; exact (hbad o ho).1
          have hz2 : ∀ x ∈ plan.hypos.zip (u.out.map Prod.snd), ∃ e, x.2 = .error e := by
            intro x hx
            obtain ⟨o, ho, ho'⟩ := List.mem_map.1 (List.of_mem_zip (a := x.1) (b := x.2) hx).2
            rw [← ho']; exact (hbad o ho).2
          have key : (∀ f, (sampleAndFinish u.libs h u.run plan u.out d.dir).1.files f = none) ∧
              ∃ e, (sampleAndFinish u.libs h u.run plan u.out d.dir).2 = .error e := by
            unfold sampleAndFinish
            by_cases hh : plan.hypos = []
            · rw [if_pos hh]; exact ⟨hd, _, rfl⟩
            · rw [if_neg hh]
              have g1 := genSave_fails h (fileName u.libs.g u.libs.root) u.run.ntoys u.run.breakLocks _ hz1 d.dir [] hd
              cases e1 : genSave h (fileName u.libs.g u.libs.root) u.run.ntoys u.run.breakLocks
                  (plan.hypos.zip (u.out.map Prod.fst)) d.dir [] with
              | mk d1 o1 =>
                rw [e1] at g1
                cases o1 with
                | error e => exact ⟨g1.1, e, rfl⟩
                | ok sb =>
                  have hsb := g1.2 sb rfl
                  subst hsb
                  dsimp only
                  have g2 := genSave_fails h (fileName u.libs.g (u.libs.root ++ "_clb")) u.run.ntoys u.run.breakLocks _
                    hz2 d1 [] g1.1
                  cases e2 : genSave h (fileName u.libs.g (u.libs.root ++ "_clb")) u.run.ntoys u.run.breakLocks
                      (plan.hypos.zip (u.out.map Prod.snd)) d1 [] with
                  | mk d2 o2 =>
                    rw [e2] at g2
                    cases o2 with
                    | error e => exact ⟨g2.1, e, rfl⟩
                    | ok b =>
                      refine ⟨g2.1, ?_⟩
                      dsimp only
                      have hne : plan.raster ≠ [] := by
                        intro hr0
                        obtain ⟨gens, _, hf⟩ := prepare_inv hp
                        rw [hr0] at hf
                        simp only [List.zip_nil_left] at hf
                        cases hsm : plan.samplers with
                        | nil => exact hh (by simp [Plan.hypos, hsm])
                        | cons a l => rw [hsm] at hf; cases hf
                      cases hfin : finish u.libs.spl h u.run plan ⟨⟨plan.hypos, []⟩, ⟨plan.hypos, b⟩⟩ with
                      | error e => exact ⟨e, rfl⟩
                      | ok rep => exact absurd hfin (finish_empty hne rfl rep)
          obtain ⟨k1, e, k2⟩ := key
          cases hsf : sampleAndFinish u.libs h u.run plan u.out d.dir with
          | mk dd ro =>
            rw [hsf] at k1 k2
            have k2' : ro = .error e := k2
            subst k2'
            exact ⟨rfl, k1, fun _ => ⟨e, rfl⟩⟩
  have all : (after h us d).results = d.results ∧ ∀ f, (after h us d).dir.files f = none := by
    unfold after
    induction us generalizing d with
    | nil => exact ⟨rfl, hd⟩
    | cons u us ih =>
      obtain ⟨h1, h2, _⟩ := one u d (hr u (by simp)) hd
      obtain ⟨i1, i2⟩ := ih (fun u hu => hr u (by simp [hu])) _ h2
      exact ⟨i1.trans h1, i2⟩
  exact ⟨all.1, all.2, fun u hu hn => (one u _ hu all.2).2.2 hn⟩

theorem set_poi_inv {m : ParModel ℝ} {p q : Pars ℝ} {n : String} {v : ℝ} (hn : n ∈ m.pois)
    (h : p.set m n v false = .ok q) : q.get m n = .ok v ∧ ∀ k, k ≠ n → q.get m k = p.get m k := by
  unfold Pars.set at h
  rw [if_pos hn] at h
  by_cases hlt : m.pois.idxOf n < p.pois.length
  · rw [if_pos hlt] at h
    have := Except.ok.inj (ε := PyErr) h
    subst this
    refine ⟨by simp [Pars.get, hn, hlt], fun k hk => ?_⟩
    unfold Pars.get
    by_cases hkp : k ∈ m.pois
    · have : m.pois.idxOf n ≠ m.pois.idxOf k := fun e => hk ((List.idxOf_inj hn).1 e).symm
      simp [hkp, List.getElem?_set_ne this]
    · simp [hkp]
  · rw [if_neg hlt] at h
    cases h

/-- C80: the background toys.  They are generated with the first POI of the model at 0 and every other parameter as for the
signal-plus-background toys.  (Finding F101: this holds whichever POI is scanned; a scan of another one compares two samples
with the same value of the scanned POI, and the results file names the first POI of the model.) -/
theorem c80_background (h : List String → ℕ) (L : Cmd.Lib) (run : Run) (plan : Plan)
    (hp : prepare h L run = .ok plan) (s : Smp × Smp) (hm : s ∈ plan.samplers) :
    ∃ n0, run.c.m.pois.head? = some n0 ∧ s.2.cfg.genHypo.get run.c.m n0 = .ok 0 ∧
      (∀ n, n ≠ n0 → s.2.cfg.genHypo.get run.c.m n = s.1.cfg.genHypo.get run.c.m n) ∧
      ∀ (S : SplineLib) (t : CLsSamples) (rep : Report), finish S h run plan t = .ok rep → rep.poiName = n0 := by
  obtain ⟨gens, hr, hf⟩ := prepare_inv hp
  obtain ⟨x, hx, hsx⟩ := Markup.forall₂_mem_right hf s hm
  obtain ⟨a, n0, g0, f, p, b, _, hn, hg, _, _, rfl⟩ := samplersAt_inv hsx
  have hh : run.c.m.pois.head? = some n0 := by
    unfold poi0 at hn
    cases hq : run.c.m.pois with
    | nil => rw [hq] at hn; cases hn
    | cons c l => rw [hq] at hn; cases hn; rfl
  have hmem : n0 ∈ run.c.m.pois := List.mem_of_mem_head? hh
  obtain ⟨g1, g2⟩ := set_poi_inv hmem hg
  refine ⟨n0, hh, g1, g2, fun S t rep hfin => ?_⟩
  obtain ⟨_, _, _, _, _, _, _, _, _, _, _, _, _, hq, _⟩ := finish_inv hfin
  rw [hn] at hq
  exact (Except.ok.inj (ε := PyErr) hq).symm

/-- C80 finding F102: `--sethypo` cannot be used: with any text, the script stops before the toys (unless there is no point). -/
theorem c80_sethypo (h : List String → ℕ) (L : Cmd.Lib) (run : Run) (hs : run.sethypo ≠ []) (r : Raster)
    (hr : Raster.loadWithAsimov h run.c.m run.fits = .ok r) (hne : r ≠ [])
    (hfit : ∀ e ∈ r, ∃ p, genPars run.c.m e = .ok p) : prepare h L run = .error .valueError := by
  obtain ⟨gens, hg⟩ : ∃ g, r.mapM (genPars run.c.m) = .ok g := Lim.mapM_total hfit
  have hlen : ∃ p l, gens = p :: l := by
    cases r with
    | nil => exact absurd rfl hne
    | cons e r =>
      have := (mapM_ok_iff.1 hg)
      cases gens with
      | nil => cases this
      | cons p l => exact ⟨p, l, rfl⟩
  obtain ⟨p, l, rfl⟩ := hlen
  have hone : ∀ hy p f, ∃ e, setHypoOne L run.c.m hy p f = .error e := by
    intro hy p f
    unfold setHypoOne
    cases hu : Cmd.unpack2 f with
    | error e => exact ⟨e, rfl⟩
    | ok vv =>
      obtain ⟨var, val⟩ := vv
      rw [bind_ok]
      dsimp only
      by_cases hk : String.ofList var ∉ Dict.keys hy
      · rw [if_pos hk]; exact ⟨_, rfl⟩
      · rw [if_neg hk]
        cases hv : L.float val with
        | none => exact ⟨_, rfl⟩
        | some v =>
          dsimp only
          cases hq : p.set run.c.m (String.ofList var) v false with
          | error e => exact ⟨e, rfl⟩
          | ok q => exact ⟨_, rfl⟩
  have hf : ∃ f fs, Cmd.fields run.sethypo = f :: fs := by
    cases hq : Cmd.fields run.sethypo with
    | nil =>
      unfold Cmd.fields at hq
      simp at hq
    | cons f fs => exact ⟨f, fs, rfl⟩
  obtain ⟨f, fs, hf⟩ := hf
  have hloop : ∃ e, setHypoLoop L run.c.m run.sethypo r (p :: l) = .error e := by
    cases r with
    | nil => exact absurd rfl hne
    | cons e r =>
      unfold setHypoLoop
      obtain ⟨er, her⟩ := hone e.2.data.hypo p f
      refine ⟨er, ?_⟩
      rw [List.zip_cons_cons, List.mapM_cons, hf, List.foldlM_cons, her]
      rfl
  obtain ⟨e, he⟩ := hloop
  unfold prepare rasters
  rw [hr, bind_ok]
  have : genHypos L run.c.m run.sethypo r = .error .valueError := by
    unfold genHypos
    rw [hg, bind_ok, if_neg hs, he]
    rfl
  rw [this]
  rfl

/-- C80 finding F103: a scan with one point never gives results: the script stops with `IndexError` or earlier. -/
theorem c80_single_point (L : SplineLib) (h : List String → ℕ) (run : Run) (plan : Plan) (s : CLsSamples) (e : Hypo × REntry)
    (hr : plan.raster = [e]) :
    (∀ rep, finish L h run plan s ≠ .ok rep) ∧ (run.truncate = none → finish L h run plan s = .error .indexError) := by
  have key : firstPoi (Raster.haveCompatiblePois (plan.raster.map Prod.fst)) = .error .indexError := by
    rw [hr]
    rfl
  constructor
  · intro rep hf
    unfold finish at hf
    obtain ⟨s', _, hf⟩ := bind_eq_ok.1 hf
    dsimp only at hf
    rw [key] at hf
    cases hf
  · intro ht
    have hc : cutStage h run.truncate s = .ok s := by rw [ht]; rfl
    unfold finish
    rw [hc, bind_ok]
    dsimp only
    rw [key]
    rfl

/-- C80 finding F104: `--cl` changes the confidence level written to the results file and none of the limits (cf. F49). -/
theorem c80_cl_ignored (L : SplineLib) (h : List String → ℕ) (run : Run) (plan : Plan) (s : CLsSamples) (cl : ℝ) (rep : Report)
    (hf : finish L h run plan s = .ok rep) :
    finish L h { run with cl := cl } plan s = .ok { rep with cl := cl } ∧ rep.cl = run.cl := by
  refine ⟨?_, ?_⟩
  · unfold finish at hf ⊢
    obtain ⟨s', hs, hf⟩ := bind_eq_ok.1 hf
    obtain ⟨u, hu, hf⟩ := bind_eq_ok.1 hf
    obtain ⟨r, hr, hf⟩ := bind_eq_ok.1 hf
    obtain ⟨r', hr', hf⟩ := bind_eq_ok.1 hf
    obtain ⟨a1, h1, hf⟩ := bind_eq_ok.1 hf
    obtain ⟨a2, h2, hf⟩ := bind_eq_ok.1 hf
    obtain ⟨a3, h3, hf⟩ := bind_eq_ok.1 hf
    obtain ⟨a4, h4, hf⟩ := bind_eq_ok.1 hf
    obtain ⟨a5, h5, hf⟩ := bind_eq_ok.1 hf
    obtain ⟨a6, h6, hf⟩ := bind_eq_ok.1 hf
    obtain ⟨b, hb, hf⟩ := bind_eq_ok.1 hf
    obtain ⟨n0, hn, hf⟩ := bind_eq_ok.1 hf
    have := Except.ok.inj (ε := PyErr) hf
    subst this
    have hup : ∀ ps r k, upper L ps r k cl = upper L ps r k run.cl := fun _ _ _ => rfl
    have hupe : ∀ ps r k, upperErr L ps r k cl = upperErr L ps r k run.cl := fun _ _ _ => rfl
    dsimp only
    simp only [hs, hu, hr, hr', hup, hupe, h1, h2, h3, h4, h5, h6, hb, hn, bind_ok]
    rfl
  · obtain ⟨_, _, _, _, _, _, _, _, _, _, _, _, _, _, hq⟩ := finish_inv hf
    exact hq

/-- C80 finding F105: the toys of the statistic `q_mu` too are the p-values of the statistic that is bounded at 0. -/
theorem c80_statistic (h : List String → ℕ) (L : Cmd.Lib) (run : Run) (plan : Plan)
    (hp : prepare h L run = .ok plan) (s : Smp × Smp) (hm : s ∈ plan.samplers) (c : CalcSetup) (env : SampEnv)
    (st st' : OptiSampler.St) (pv : ℝ) (ha : st.min.altMethod = none) (hr : st.min.rebound = 0)
    (hc : OptiSampler.compute c s.1.cfg env st = .ok (st', some pv)) :
    ∃ e ∈ plan.raster, ∃ fe ∈ plan.faster, ∃ A o poi test rest best more, Dict.get? fe.2.data.testStats "tmu_A0" = some A ∧
      st.min.tmu c.opt c.m c.pois env.fit s.1.cfg.genHypo e.2.data.hypo = .ok (st'.min, o) ∧
      e.2.data.hypo = (poi, test) :: rest ∧ st'.minPois = some (best :: more) ∧
      pv = qtPv (qmutOf o.tmu best test) (max A 0) 0 := by
  obtain ⟨gens, hr', hf⟩ := prepare_inv hp
  obtain ⟨x, hx, hsx⟩ := Markup.forall₂_mem_right hf s hm
  obtain ⟨a, n0, g0, f, p, b, hA, hn, hg, _, _, rfl⟩ := samplersAt_inv hsx
  obtain ⟨⟨e, fe⟩, g⟩ := x
  have he := List.of_mem_zip (List.of_mem_zip hx).1
  obtain ⟨o, poi, test, rest, best, more, h1, h2, h3, h4, h5, h6⟩ :=
    c76_qmutilda c _ env st st' pv a a ha hr rfl rfl hc
  exact ⟨e, he.1, fe, he.2, a, o, poi, test, rest, best, more, hA, h1, h2, h3, h5⟩

theorem genSave_loads (h : List String → ℕ) (fname : Hypo → String) (n : ℕ) (brk : Bool) (f : Hypo → List ℝ) (d : Dir) :
    ∀ (l : List (Hypo × Except PyErr (List ℝ))) (acc : HDict (List ℝ)),
      (∀ x ∈ l, d.files (fname x.1) = some (.complete (f x.1)) ∧ n ≤ (f x.1).length) →
      genSave h fname n brk l d acc =
        (d, .ok ((l.map fun x => (x.1, if n = 0 then f x.1 else (f x.1).take n)).foldl
          (fun d kv => HDict.set h d kv.1 kv.2) acc)) := by
  intro l
  induction l with
  | nil => intro acc _; rfl
  | cons x l ih =>
    intro acc hx
    obtain ⟨a, out⟩ := x
    obtain ⟨h1, h2⟩ := hx (a, out) (by simp)
    have hl : SampDist.load (SampDist.init n none) (some (f a)) = .ok (if n = 0 then f a else (f a).take n) := by
      have hlen : (SampDist.init n none).length = n := by simp [SampDist.init]
      unfold SampDist.load
      dsimp only
      rw [hlen, if_neg (by dsimp only at h2; omega)]
      by_cases h0 : n = 0
      · subst h0; simp
      · by_cases h3 : n < (f a).length
        · rw [if_pos ⟨by omega, h3⟩, if_neg h0]
        · rw [if_neg (by omega), if_neg h0, List.take_of_length_le (by omega)]
    have h1' : oneHypo (fname a) n brk out d = (d, .ok (some (if n = 0 then f a else (f a).take n))) := by
      unfold oneHypo
      dsimp only at h1
      rw [h1]
      dsimp only [Lock.Content.read]
      rw [hl]
    rw [genSave, h1']
    exact ih _ (fun x hx' => hx x (by simp [hx']))

/-- C80: running again.  If the samples of all points are on disk, with at least as many toys as requested, a run generates
nothing, leaves the directory as it is, and computes the results from the first toys of the files, whatever the samplers
would have given. -/
theorem c80_rerun (B : Libs) (h : List String → ℕ) (run : Run) (plan : Plan) (hn : plan.hypos ≠ []) (hN : 0 < run.ntoys)
    (out : List (Except PyErr (List ℝ) × Except PyErr (List ℝ))) (hout : out.length = plan.hypos.length) (d : Dir)
    (fsb fb : Hypo → List ℝ)
    (hsb : ∀ a ∈ plan.hypos, d.files (fileName B.g B.root a) = some (.complete (fsb a)) ∧ run.ntoys ≤ (fsb a).length)
    (hb : ∀ a ∈ plan.hypos, d.files (fileName B.g (B.root ++ "_clb") a) = some (.complete (fb a)) ∧
      run.ntoys ≤ (fb a).length) :
    sampleAndFinish B h run plan out d =
      (d, finish B.spl h run plan
        ⟨⟨plan.hypos, rasterOf h (plan.hypos.map fun a => (a, (fsb a).take run.ntoys))⟩,
         ⟨plan.hypos, rasterOf h (plan.hypos.map fun a => (a, (fb a).take run.ntoys))⟩⟩) := by
  have hz : ∀ (o : List (Except PyErr (List ℝ))) (f : Hypo → List ℝ), o.length = plan.hypos.length →
      (plan.hypos.zip o).map (fun x => (x.1, if run.ntoys = 0 then f x.1 else (f x.1).take run.ntoys)) =
        plan.hypos.map fun a => (a, (f a).take run.ntoys) := by
    intro o f ho
    have : (plan.hypos.zip o).map Prod.fst = plan.hypos := List.map_fst_zip (by omega)
    conv_rhs => rw [← this, List.map_map]
    refine List.map_congr_left fun x _ => ?_
    rw [if_neg (by omega)]
    rfl
  unfold sampleAndFinish
  rw [if_neg hn, genSave_loads h _ _ _ fsb d _ _ (fun x hx => hsb x.1 (List.of_mem_zip (a := x.1) (b := x.2) hx).1)]
  dsimp only
  rw [genSave_loads h _ _ _ fb d _ _ (fun x hx => hb x.1 (List.of_mem_zip (a := x.1) (b := x.2) hx).1)]
  dsimp only
  rw [hz _ fsb (by simpa using hout), hz _ fb (by simpa using hout)]
  rfl

/-! ### The hypotheses are met -/

theorem replicate_pos_ne (n : ℕ) (x : ℝ) (h : 0 < n) : List.replicate n x ≠ [] := by
  intro he
  have := congrArg List.length he
  rw [List.length_replicate, List.length_nil] at this
  omega

theorem forall₂_choose {α β : Type} {R : α → β → Prop} (l : List α) (h : ∀ a ∈ l, ∃ b, R a b) :
    ∃ out, List.Forall₂ R l out := by
  induction l with
  | nil => exact ⟨[], .nil⟩
  | cons a l ih =>
    obtain ⟨b, hb⟩ := h a (by simp)
    obtain ⟨out, ho⟩ := ih fun x hx => h x (by simp [hx])
    exact ⟨b :: out, .cons hb ho⟩

theorem demo_toysAt (h : List String → ℕ) (S : List (Smp × Smp)) :
    ToysAt h (⟨LimDemo.raster, LimDemo.raster, S⟩ : Plan).raster (LimDemo.samples h) LimDemo.lsb LimDemo.lb where
  hypos := ⟨rfl, rfl⟩
  keys := by simp [LimDemo.raster, LimDemo.entry, Dict.keys]
  stored := by
    have hw : ∀ f : Hypo → List ℝ, (rasterOf h (LimDemo.hypos.map fun a => (a, f a))).WF := fun f =>
      wf_rasterOf h _ (by
        intro kv hkv
        obtain ⟨a, ha, rfl⟩ := List.mem_map.1 hkv
        unfold Hypo.WF
        rw [LimDemo.hypos_keys a ha]
        simp)
    exact ⟨hw fun a => SampDist.sort (LimDemo.lsb a), hw fun a => SampDist.sort (LimDemo.lb a)⟩
  toys := fun e he => ⟨LimDemo.get_sb h _ (List.mem_map.2 ⟨e, he, rfl⟩), LimDemo.get_b h _ (List.mem_map.2 ⟨e, he, rfl⟩)⟩

/-- `c80_sampling_cls`, `c80_sampling_clsb` and `c80_asymptotic` apply to a scan with four points and 200 toys each, where all
limits exist, and the points of the first and of the third one can carry the spline. -/
example (h : List String → ℕ) : ∃ rep, finish SplineEx.lib h (LimDemo.theRun 200) ⟨LimDemo.raster, LimDemo.raster, []⟩
      (LimDemo.samples h) = .ok rep ∧ rep.samplingCls.isSome ∧ rep.samplingClsb.isSome ∧ rep.asyCls.isSome ∧
      rep.asyClsFast.isSome ∧ Scannable (LimDemo.kneePts (1 / 2) (1 / 100)) ∧
      StoredPoints LimDemo.raster "mu" "cls" (LimDemo.kneePts (1 / 2) (1 / 100)) := by
  obtain ⟨a1, a2, a3, a4, a5, a6, hf⟩ := LimDemo.finish_ok h (LimDemo.theRun 200) rfl rfl "a" rfl []
  refine ⟨_, hf, rfl, rfl, rfl, rfl, ⟨?_, ?_⟩, ?_⟩
  · simp [LimDemo.kneePts, positive]
  · simp [LimDemo.kneePts, positive]
    norm_num
  · simp [StoredPoints, LimDemo.kneePts, LimDemo.raster, LimDemo.entry, Dict.get?]

/-- The CLs values of these toys, and that a limit is found between the points. -/
example (h : List String → ℕ) : ∃ x, FirstCrossing SplineEx.lib (LimDemo.kneePts 1 (1 / 50)) x := by
  obtain ⟨a1, a2, a3, a4, a5, ⟨x, xu, xd⟩, hf⟩ := LimDemo.finish_ok h (LimDemo.theRun 200) rfl rfl "a" rfl []
  obtain ⟨poi, hpoi, hc⟩ := c80_sampling_cls SplineEx.lib SplineEx.correct h _ _ _ _ _ (demo_toysAt h []) _ hf x xu xd rfl
  have hp : poi = "mu" := by
    have : Raster.haveCompatiblePois (LimDemo.raster.map Prod.fst) = ["mu"] := by
      simp [LimDemo.raster, LimDemo.entry, Raster.haveCompatiblePois, Dict.keys]
    rw [this] at hpoi
    exact (Option.some.inj hpoi).symm
  subst hp
  refine ⟨x, hc _ ?_ ⟨by simp [LimDemo.kneePts, positive], by simp [LimDemo.kneePts, positive]; norm_num⟩⟩
  have hkeep : ∀ l : List ℝ, kept none l = l := fun l => by simp [kept]
  have hcls : ∀ (a : Hypo) (x psb esb : ℝ), 1 / 1000 < x →
      SampDist.pvErr (SampDist.sort (LimDemo.lsb a)) x = .ok (psb, esb) → LimDemo.lsb a ≠ [] →
      psb = toyCls (kept none (LimDemo.lsb a)) (kept none (LimDemo.lb a)) x := by
    intro a x psb esb hx hsb hne
    have m1 : midP (LimDemo.lsb a) x = psb := by
      obtain ⟨e, he, _⟩ := SampDist.pvErr_init (LimDemo.lsb a) hne x
      rw [he] at hsb
      exact congrArg Prod.fst (Except.ok.inj (ε := PyErr) hsb)
    have m2 : midP (LimDemo.lb a) x = 1 := by
      obtain ⟨e, he, _⟩ := SampDist.pvErr_init (LimDemo.lb a) (replicate_pos_ne 200 _ (by norm_num)) x
      rw [LimDemo.lb_pvErr a x hx] at he
      exact (congrArg Prod.fst (Except.ok.inj (ε := PyErr) he)).symm
    rw [hkeep, hkeep]
    simp [toyCls, m1, m2]
  have hne : ∀ a, LimDemo.lsb a ≠ [] := by
    intro a
    unfold LimDemo.lsb
    split_ifs
    · exact List.append_ne_nil_of_left_ne_nil (replicate_pos_ne 4 _ (by norm_num)) _
    · exact replicate_pos_ne 200 _ (by norm_num)
  unfold ToyPoints LimDemo.kneePts LimDemo.raster LimDemo.entry
  refine .cons ⟨rfl, 1 / 2, rfl, ?_⟩ (.cons ⟨rfl, 1 / 2, rfl, ?_⟩ (.cons ⟨rfl, 1 / 2, rfl, ?_⟩ (.cons ⟨rfl, 1 / 100, rfl, ?_⟩ .nil)))
  · exact hcls _ _ _ _ (by norm_num) (LimDemo.lsb_pvErr _ (by simp)) (hne _)
  · exact hcls _ _ _ _ (by norm_num) (LimDemo.lsb_pvErr _ (by norm_num)) (hne _)
  · exact hcls _ _ _ _ (by norm_num) (LimDemo.lsb_pvErr _ (by norm_num)) (hne _)
  · exact hcls _ _ _ _ (by norm_num) LimDemo.lsb_pvErr3 (hne _)

/-- The jobs of `c80_limit_from_jobs`: for each kind of samples, a job that generates these toys, alone in its directory. -/
example (h : List String → ℕ) (g : Hypo → String) (hg : (LimDemo.hypos.map g).Nodup) (t : Hypo → List ℝ)
    (ht : ∀ a, (t a).length = 200) :
    ∃ σ p, Lock.StepsOf ⟨g, fun n a s => n = 200 ∧ s = t a⟩ 200 (· ∈ LimDemo.hypos) Lock.Sys.init σ ∧ σ.procs 0 = some p ∧
      p.todo = [] ∧ rasterOf h p.dists = rasterOf h (LimDemo.hypos.map fun a => (a, SampDist.sort (t a))) ∧
      (∀ e ∈ p.dists, Dict.keys e.1 = ["mu"]) := by
  obtain ⟨σ, p, h1, h2, h3, h4, _⟩ := Lock.start_alone (E := ⟨g, fun n a s => n = 200 ∧ s = t a⟩) (N := 200)
    (S := (· ∈ LimDemo.hypos)) false t 0 LimDemo.hypos (fun a ha => ⟨⟨rfl, rfl⟩, ha⟩) hg
  refine ⟨σ, p, h1, h2, h3, by rw [h4], ?_⟩
  rw [h4]
  intro e he
  obtain ⟨a, ha, rfl⟩ := List.mem_map.1 he
  exact LimDemo.hypos_keys a ha

/-- A run that asks for toys prepares samplers (`c80_generation`, `c80_background`), and they have outcomes
(`c80_samplers_fail`, `c80_never`). -/
example (L : Cmd.Lib) (n : ℕ) : ∃ plan, prepare LimDemo.h0 L (LimDemo.theRun (n + 1)) = .ok plan ∧ plan.samplers ≠ [] ∧
    ∃ out, List.Forall₂ (fun (s : Smp × Smp) (o : Except PyErr (List ℝ) × Except PyErr (List ℝ)) => Outcome oneSetup (n + 1) s.1 o.1 ∧ Outcome oneSetup (n + 1) s.2 o.2) plan.samplers out := by
  obtain ⟨plan, hp, hs⟩ := LimDemo.prepared L (n + 1)
  refine ⟨plan, hp, hs, ?_⟩
  obtain ⟨gens, hr, hf⟩ := prepare_inv hp
  refine forall₂_choose _ fun s hs => ?_
  obtain ⟨x, hx, hsx⟩ := Markup.forall₂_mem_right hf s hs
  obtain ⟨a, n0, g0, f, p, b, _, hn0, hg, _, hb, rfl⟩ := samplersAt_inv hsx
  have one : ∀ cfg : OptiSampler.Cfg, ∃ e, ∀ env, OptiSampler.computeAny oneSetup cfg b env (OptiSampler.St.fresh "scalar") = .error e := by
    intro cfg
    cases hq : setHypo oneSetup.m cfg.testHypo cfg.genHypo with
    | error e => exact ⟨e, fun env => by unfold OptiSampler.computeAny; rw [hq]; rfl⟩
    | ok q =>
      exact ⟨_, fun env => (c76_ranges_break oneSetup cfg f p b (fun _ => env) _ q 0 0 (by simp [oneSetup]) hb hq).1 env⟩
  have two : ∀ cfg : OptiSampler.Cfg, ∃ e, Outcome oneSetup (n + 1) ⟨cfg, b⟩ (.error e) := by
    intro cfg
    obtain ⟨e, he⟩ := one cfg
    refine ⟨e, fun _ => ⟨oneEnv, fun _ => .ok none⟩, fun _ => OptiSampler.St.fresh "scalar", 1, ?_⟩
    simp [Sampler.generate, Sampler.toys, Sampler.toy, he]
  obtain ⟨e1, h1⟩ := two ⟨x.1.1.2.data.hypo, x.2, (LimDemo.theRun (n + 1)).genBounds, some a, some a⟩
  obtain ⟨e2, h2⟩ := two ⟨x.1.1.2.data.hypo, g0, (LimDemo.theRun (n + 1)).genBounds, some a, some a⟩
  exact ⟨(.error e1, .error e2), h1, h2⟩

/-- `c80_sethypo` applies to the run of the previous example, with any text for the option. -/
example (L : Cmd.Lib) (n : ℕ) (text : Cmd.Str) (ht : text ≠ []) :
    prepare LimDemo.h0 L { LimDemo.theRun n with sethypo := text } = .error .valueError := by
  refine c80_sethypo _ L _ ht _ LimDemo.load_all (by simp) ?_
  intro e he
  obtain rfl := List.mem_singleton.1 he
  exact ⟨⟨[2], []⟩, rfl⟩

/-- `c80_rerun`: a directory with 200 toys in every file, and a run that asks for 100. -/
example (B : Libs) (hB : B.spl = SplineEx.lib) (h : List String → ℕ) (out : List (Except PyErr (List ℝ) × Except PyErr (List ℝ)))
    (t : Smp) (hout : out.length = 4) :
    let plan : Plan := ⟨LimDemo.raster, LimDemo.raster, LimDemo.hypos.map fun a => ({ t with cfg := { t.cfg with testHypo := a } }, t)⟩
    ∃ d, sampleAndFinish B h (LimDemo.theRun 100) plan out d =
      (d, finish SplineEx.lib h (LimDemo.theRun 100) plan
        ⟨⟨plan.hypos, rasterOf h (plan.hypos.map fun a => (a, (List.replicate 200 (1 / 2)).take 100))⟩,
         ⟨plan.hypos, rasterOf h (plan.hypos.map fun a => (a, (List.replicate 200 (1 / 2)).take 100))⟩⟩) := by
  intro plan
  have hlen : ∀ k : ℕ, 100 ≤ k → 100 ≤ (List.replicate k (1 / 2 : ℝ)).length := fun k hk => by rwa [List.length_replicate]
  have hp : plan.hypos = LimDemo.hypos := by
    simp [plan, Plan.hypos, Function.comp_def]
  have h4 : LimDemo.hypos.length = 4 := by simp [LimDemo.hypos, LimDemo.raster]
  refine ⟨⟨fun _ => some (.complete (List.replicate 200 (1 / 2))), fun _ => false⟩, ?_⟩
  rw [← hB]
  exact c80_rerun B h (LimDemo.theRun 100) plan (by rw [hp]; intro hh; rw [hh] at h4; simp at h4) (by simp [LimDemo.theRun]) out
    (by rw [hp, h4, hout]) _ (fun _ => List.replicate 200 (1 / 2)) (fun _ => List.replicate 200 (1 / 2))
    (fun a _ => ⟨rfl, hlen 200 (by norm_num)⟩) (fun a _ => ⟨rfl, hlen 200 (by norm_num)⟩)

end Verif.Props
