import Verif.Lemmas.SplineEx
import Verif.Lemmas.LimitScript
import Verif.Props.Scans
import Verif.Props.FitData
import Mathlib.Tactic.NormNum
/-!
# A scan with toys for the examples of C80
-/
namespace Verif
namespace LimDemo
open Polynomial

/-- `1` at 0, 1 and 2, and `0` at 3, as a cubic: `1 - x(x-1)(x-2)/6`. -/
noncomputable def knee (a b : ℝ) : ℝ[X] := C a - C ((a + b) / 6) * (X * (X - 1) * (X - 2))

theorem knee_eval (a b x : ℝ) : (knee a b).eval x = a - (a + b) / 6 * (x * (x - 1) * (x - 2)) := by
  simp [knee]

theorem knee_deg (a b : ℝ) : (knee a b).degree < 4 := by
  have h : (knee a b).degree ≤ 3 := by
    unfold knee
    compute_degree
  exact lt_of_le_of_lt h (by norm_num)

theorem poly_knee (a b : ℝ) : SplineEx.poly ⟨[0, 1, 2, 3], [a, a, a, -b], 3⟩ = knee a b := by
  unfold SplineEx.poly
  symm
  refine Lagrange.eq_interpolate_of_eval_eq (s := Finset.univ) _ ?_ ?_ ?_
  · exact SplineEx.inj_nodes (by norm_num)
  · refine lt_of_lt_of_le (knee_deg a b) ?_
    simp
  · intro i _
    dsimp only at i ⊢
    fin_cases i <;> simp [knee_eval] <;> ring

theorem knee_roots (a b : ℝ) (hb : 0 < b) (hab : b ≤ a) :
    ∃ x, SplineEx.lib.roots ⟨[0, 1, 2, 3], [a, a, a, -b], 3⟩ = [x] := by
  set s : Spl := ⟨[0, 1, 2, 3], [a, a, a, -b], 3⟩ with hs
  have ha : 0 < a := lt_of_lt_of_le hb hab
  have hne : knee a b ≠ 0 := by
    intro h
    have := knee_eval a b 0
    rw [h] at this
    simp at this
    linarith
  have hfin := SplineEx.zeros_finite s (knee a b) hne
  have hr : ∀ x, s.InRange x ↔ 0 ≤ x ∧ x ≤ 3 := by
    intro x
    simp only [Spl.InRange, hs, List.mem_cons, List.not_mem_nil, or_false]
    constructor
    · rintro ⟨⟨p, hp, h1⟩, ⟨q, hq, h2⟩⟩
      constructor
      · rcases hp with rfl | rfl | rfl | rfl <;> linarith
      · rcases hq with rfl | rfl | rfl | rfl <;> linarith
    · rintro ⟨h1, h2⟩
      exact ⟨⟨0, by simp, h1⟩, ⟨3, by simp, h2⟩⟩
  obtain ⟨x, hx, hx0⟩ : ∃ x ∈ Set.Icc (0 : ℝ) 3, (knee a b).eval x = 0 := by
    have := intermediate_value_Icc' (f := fun x => (knee a b).eval x) (by norm_num : (0 : ℝ) ≤ 3)
      (knee a b).continuous.continuousOn
    refine this ⟨?_, ?_⟩
    · simp only [knee_eval]; linarith
    · simp only [knee_eval]; linarith
  have huniq : ∀ y, 0 ≤ y → y ≤ 3 → (knee a b).eval y = 0 → y = x := by
    have hbig : ∀ y, 0 ≤ y → y ≤ 2 → (knee a b).eval y ≠ 0 := by
      intro y h0 h2 h
      rw [knee_eval] at h
      have h3 : y * (y - 1) * (y - 2) ≤ 1 := by nlinarith [sq_nonneg (y - 1), mul_nonneg h0 (sub_nonneg.2 h2)]
      nlinarith
    have hpos : ∀ y, 0 ≤ y → y ≤ 3 → (knee a b).eval y = 0 → 2 < y := by
      intro y h0 h3 h
      by_contra hc
      exact hbig y h0 (not_lt.1 hc) h
    intro y h0 h3 hy
    have hy2 := hpos y h0 h3 hy
    have hx2 := hpos x hx.1 hx.2 hx0
    rw [knee_eval] at hy hx0
    have : y * (y - 1) * (y - 2) = x * (x - 1) * (x - 2) := by
      have h6 : (a + b) / 6 ≠ 0 := by positivity
      have : (a + b) / 6 * (y * (y - 1) * (y - 2)) = (a + b) / 6 * (x * (x - 1) * (x - 2)) := by linarith
      exact mul_left_cancel₀ h6 this
    have hf : (y - x) * (y ^ 2 + y * x + x ^ 2 - 3 * (y + x) + 2) = 0 := by ring_nf; ring_nf at this; linarith
    rcases mul_eq_zero.1 hf with h | h
    · linarith
    · nlinarith
  refine ⟨x, ?_⟩
  have hset : {y | s.InRange y ∧ (knee a b).eval y = 0} = {x} := by
    ext y
    simp only [Set.mem_setOf_eq, hr, Set.mem_singleton_iff]
    constructor
    · rintro ⟨⟨h1, h2⟩, h3⟩; exact huniq y h1 h2 h3
    · rintro rfl; exact ⟨⟨hx.1, hx.2⟩, hx0⟩
  have hF : hfin.toFinset = {x} := by ext y; simp only [Set.Finite.mem_toFinset, hset]; simp
  show SplineEx.zeros s (SplineEx.poly s) = [x]
  rw [hs, poly_knee, ← hs]
  unfold SplineEx.zeros
  rw [dif_pos hfin, hF]
  simp

/-- `v` at three points and `w` at the fourth one cross 0.05 once. -/
theorem knee_crossing (v w : ℝ) (hw : 0 < w) (hw' : w < 1 - 95 / 100) (hvw : (1 - 95 / 100) ^ 2 ≤ v * w) :
    ∃ x, Scan.interpolateCrossings SplineEx.lib [0, 1, 2, 3] [v, v, v, w] (1 - 95 / 100) 3 true = .ok (some [x]) := by
  have hv : 0 < v := by
    by_contra h
    have : v * w ≤ 0 := mul_nonpos_of_nonpos_of_nonneg (not_lt.1 h) hw.le
    norm_num at hvw
    linarith
  set t : ℝ := 1 - 95 / 100 with ht
  have ht0 : 0 < t := by rw [ht]; norm_num
  clear_value t
  have hpts : Scan.interpPoints [0, 1, 2, 3] [v, v, v, w] t true =
      [(0, Real.log (v / t)), (1, Real.log (v / t)), (2, Real.log (v / t)), (3, Real.log (w / t))] := by
    simp [Scan.interpPoints, hv, hw]
  obtain ⟨x, hx⟩ := knee_roots (Real.log (v / t)) (-Real.log (w / t))
    (by
      have : Real.log (w / t) < 0 := Real.log_neg (by positivity) (by rw [div_lt_one ht0]; exact hw')
      linarith)
    (by
      have : 0 ≤ Real.log (v / t * (w / t)) := Real.log_nonneg (by
        rw [div_mul_div_comm, le_div_iff₀ (by positivity)]
        linarith [hvw, sq t])
      rw [Real.log_mul (by positivity) (by positivity)] at this
      linarith)
  refine ⟨x, ?_⟩
  rw [neg_neg] at hx
  unfold Scan.interpolateCrossings
  rw [hpts]
  have hsp : Scan.spline [0, 1, 2, 3] [Real.log (v / t), Real.log (v / t), Real.log (v / t), Real.log (w / t)] 3 =
      .ok ⟨[0, 1, 2, 3], [Real.log (v / t), Real.log (v / t), Real.log (v / t), Real.log (w / t)], 3⟩ := by
    unfold Scan.spline
    rw [if_pos]
    refine ⟨?_, ?_, ?_⟩ <;> norm_num
  simp only [List.length_cons, List.length_nil, List.map_cons, List.map_nil]
  norm_num
  rw [hsp]
  simp [hx]

/-- Points `v` at 0, 1, 2 and `w` at 3, with one crossing of 0.05. -/
structure Knee (v w : ℝ) : Prop where
  pos : 0 < w
  below : w < 1 - 95 / 100
  above : (1 - 95 / 100) ^ 2 ≤ v * w

def kneePts (v w : ℝ) : List (ℝ × ℝ) := [(0, v), (1, v), (2, v), (3, w)]

theorem knee_points {key poi : String} {k v w : ℝ} {r : SRaster} (hk : Knee v w)
    (hp : Props.PointsAre key poi k r (kneePts v w)) :
    ∃ p x, Scan.points key poi r k = .ok p ∧
      Scan.interpolateCrossings SplineEx.lib p.1 p.2 (1 - 95 / 100) 3 true = .ok (some [x]) := by
  obtain ⟨x, hx⟩ := knee_crossing v w hk.pos hk.below hk.above
  exact ⟨_, x, Props.points_of key poi k r _ hp, hx⟩

theorem knee_limit {key poi : String} {v w : ℝ} {r : SRaster} (hk : Knee v w)
    (hp : Props.PointsAre key poi 0 r (kneePts v w)) (cl : ℝ) :
    ∃ x, Scan.limit SplineEx.lib key poi r cl = .ok (some x) := by
  obtain ⟨p, x, h1, h2⟩ := knee_points hk hp
  refine ⟨x, ?_⟩
  unfold Scan.limit Scan.crossings
  rw [h1]
  simp only [bind_ok, Scan.limitCl]
  rw [h2]
  rfl

theorem knee_limitErr {key poi : String} {v w v1 w1 v2 w2 : ℝ} {r : SRaster} (hk : Knee v w) (hk1 : Knee v1 w1)
    (hk2 : Knee v2 w2) (hp : Props.PointsAre key poi 0 r (kneePts v w))
    (hp1 : Props.PointsAre key poi 1 r (kneePts v1 w1)) (hp2 : Props.PointsAre key poi (-1) r (kneePts v2 w2)) (cl : ℝ) :
    ∃ x, Scan.limitErr SplineEx.lib key poi r cl = .ok (some x) := by
  obtain ⟨p, x, h1, h2⟩ := knee_points hk hp
  obtain ⟨p', x', h1', h2'⟩ := knee_points hk1 hp1
  obtain ⟨p'', x'', h1'', h2''⟩ := knee_points hk2 hp2
  refine ⟨(x, x', x''), ?_⟩
  unfold Scan.limitErr Scan.crossingsErr
  rw [h1, h1', h1'']
  simp only [bind_ok, Scan.limitCl]
  rw [h2, h2', h2'']
  rfl

/-! ### The toys -/

/-- Toys for signal and background: all below 1/2 at the first three points, 4 of 200 below 1/100 at the last one. -/
noncomputable def lsb (a : Hypo) : List ℝ :=
  open Classical in
  if a = [("mu", 3)] then List.replicate 4 (1 / 1000) ++ List.replicate 196 (1 / 2) else List.replicate 200 (1 / 4)

/-- Toys for background: all far below. -/
noncomputable def lb (_ : Hypo) : List ℝ := List.replicate 200 (1 / 1000)

/-- The error of a fraction 1 from 200 toys. -/
noncomputable def e1 : ℝ := Real.sqrt (201 / 200) / 200
/-- The error of a fraction 4/200. -/
noncomputable def e2 : ℝ := Real.sqrt (985 / 200) / 200

theorem e1_range : 0 ≤ e1 ∧ e1 ≤ 1 / 100 := by
  have : Real.sqrt (201 / 200) ≤ 2 := by
    rw [Real.sqrt_le_left (by norm_num)]; norm_num
  have := Real.sqrt_nonneg (201 / 200)
  unfold e1
  constructor <;> linarith

theorem e2_range : 0 ≤ e2 ∧ e2 ≤ 125 / 10000 := by
  have : Real.sqrt (985 / 200) ≤ 5 / 2 := by
    rw [Real.sqrt_le_left (by norm_num)]; norm_num
  have := Real.sqrt_nonneg (985 / 200)
  unfold e2
  constructor <;> linarith

theorem pvErr_of {l : List ℝ} (hs : l.Pairwise (· ≤ ·)) {x : ℝ} {a n : ℕ} (hn : l.length = n) (h0 : n ≠ 0)
    (h1 : l.countP (fun y => decide (y < x)) = a) (h2 : l.countP (fun y => decide (y ≤ x)) = a) :
    SampDist.pvErr (SampDist.sort l) x =
      .ok ((a : ℝ) / n, Real.sqrt (((a : ℝ) + 1) * (n - a + 1) / n) / n) := by
  rw [SampDist.sort_of_sorted hs]
  unfold SampDist.pvErr
  rw [SampDist.searchLeft_sorted hs, SampDist.searchRight_sorted hs, h1, h2, hn, if_neg h0]
  have : ((a : ℝ) + a) / 2 = a := by ring
  simp only [this]

theorem two_blocks (m k : ℕ) (u v x : ℝ) (h1 : u < x) (h2 : x < v) (h0 : m + k ≠ 0) :
    SampDist.pvErr (SampDist.sort (List.replicate m u ++ List.replicate k v)) x =
      .ok ((m : ℝ) / (m + k : ℕ), Real.sqrt (((m : ℝ) + 1) * ((m + k : ℕ) - m + 1) / (m + k : ℕ)) / (m + k : ℕ)) := by
  refine pvErr_of ?_ (by simp) h0 ?_ ?_
  · rw [List.pairwise_append]
    refine ⟨List.pairwise_replicate.2 (by simp), List.pairwise_replicate.2 (by simp), ?_⟩
    intro x hx y hy
    rw [(List.mem_replicate.1 hx).2, (List.mem_replicate.1 hy).2]
    linarith
  · simp [List.countP_append, List.countP_replicate, h1, not_lt.2 h2.le]
  · simp [List.countP_append, List.countP_replicate, h1.le, not_le.2 h2]

theorem one_block (m : ℕ) (u x : ℝ) (h1 : u < x) (h0 : m ≠ 0) :
    SampDist.pvErr (SampDist.sort (List.replicate m u)) x =
      .ok ((m : ℝ) / m, Real.sqrt (((m : ℝ) + 1) * (m - m + 1) / m) / m) := by
  refine pvErr_of (List.pairwise_replicate.2 (by simp)) (by simp) h0 ?_ ?_
  · simp [List.countP_replicate, h1]
  · simp [List.countP_replicate, h1.le]

theorem lb_pvErr (a : Hypo) (x : ℝ) (hx : 1 / 1000 < x) : SampDist.pvErr (SampDist.sort (lb a)) x = .ok (1, e1) := by
  unfold lb
  rw [one_block 200 _ _ hx (by norm_num)]
  unfold e1
  norm_num

theorem lsb_pvErr (a : Hypo) (ha : a ≠ [("mu", 3)]) : SampDist.pvErr (SampDist.sort (lsb a)) (1 / 2) = .ok (1, e1) := by
  unfold lsb
  rw [if_neg ha, one_block 200 _ _ (by norm_num) (by norm_num)]
  unfold e1
  norm_num

theorem lsb_pvErr3 : SampDist.pvErr (SampDist.sort (lsb [("mu", 3)])) (1 / 100) = .ok (1 / 50, e2) := by
  unfold lsb
  rw [if_pos rfl, two_blocks 4 196 _ _ _ (by norm_num) (by norm_num) (by norm_num)]
  unfold e2
  norm_num

/-! ### Looking up stored samples -/

open Classical in
theorem lookup_map {h : List String → ℕ} {K : List String} (hK : K.Nodup) (l : List Hypo) (hl : ∀ a ∈ l, Dict.keys a = K)
    (f : Hypo → List ℝ) (a : Hypo) (ha : a ∈ l) :
    (Props.rasterOf h (l.map fun a => (a, f a))).getItem h a = .ok (f a) := by
  have hk : ∀ kv ∈ l.map (fun a => (a, f a)), Dict.keys kv.1 = K := by
    intro kv hkv
    obtain ⟨b, hb, rfl⟩ := List.mem_map.1 hkv
    exact hl b hb
  rw [HDict.getItem_ok, Props.c35_lookup h K hK _ hk a (hl a ha)]
  unfold Props.lastStored
  refine Option.map_eq_some_iff.2 ?_
  cases hf : (l.map (fun a => (a, f a))).reverse.find? (fun kv => decide (Props.SameHypo kv.1 a)) with
  | none =>
    have := List.find?_eq_none.1 hf (a, f a) (by simpa using ha)
    exact absurd (show Props.SameHypo a a from fun k => rfl) (by simpa using this)
  | some kv =>
    have hm : kv ∈ l.map (fun a => (a, f a)) := by simpa using List.mem_of_find?_eq_some hf
    have hs : Props.SameHypo kv.1 a := by simpa using List.find?_some hf
    obtain ⟨b, hb, rfl⟩ := List.mem_map.1 hm
    have : b = a := Hypo.eq_of_eqv_keys (by unfold Hypo.WF; rw [hl b hb]; exact hK) ((hl b hb).trans (hl a ha).symm)
      ((Hypo.eqv_iff (by unfold Hypo.WF; rw [hl b hb]; exact hK) (by unfold Hypo.WF; rw [hl a ha]; exact hK)).2 hs)
    subst this
    exact ⟨_, rfl, rfl⟩

/-! ### The scan -/

/-- A point with asymptotic p-values `x`. -/
def entry (mu x : ℝ) : Hypo × REntry :=
  ([("mu", mu)], ⟨⟨[("mu", mu)], none, none, [], [("pv", x), ("cls", x)], none⟩, none⟩)

noncomputable def raster : Raster := [entry 0 (1 / 2), entry 1 (1 / 2), entry 2 (1 / 2), entry 3 (1 / 100)]

noncomputable def hypos : List Hypo := raster.map fun e => e.2.data.hypo

noncomputable def samples (h : List String → ℕ) : CLsSamples :=
  ⟨⟨hypos, Props.rasterOf h (hypos.map fun a => (a, SampDist.sort (lsb a)))⟩,
   ⟨hypos, Props.rasterOf h (hypos.map fun a => (a, SampDist.sort (lb a)))⟩⟩

theorem hypos_keys : ∀ a ∈ hypos, Dict.keys a = ["mu"] := by
  simp [hypos, raster, entry, Dict.keys]

theorem get_sb (h : List String → ℕ) (a : Hypo) (ha : a ∈ hypos) :
    (samples h).clsb.dists.getItem h a = .ok (SampDist.sort (lsb a)) :=
  lookup_map (h := h) (K := ["mu"]) (by simp) hypos hypos_keys (fun a => SampDist.sort (lsb a)) a ha

theorem get_b (h : List String → ℕ) (a : Hypo) (ha : a ∈ hypos) :
    (samples h).cl_b.dists.getItem h a = .ok (SampDist.sort (lb a)) :=
  lookup_map (h := h) (K := ["mu"]) (by simp) hypos hypos_keys (fun a => SampDist.sort (lb a)) a ha

/-- Relative errors of CLs. -/
noncomputable def r1 : ℝ := Real.sqrt (e1 ^ 2 + e1 ^ 2)
noncomputable def r2 : ℝ := 1 / 50 * Real.sqrt ((e2 / (1 / 50)) ^ 2 + e1 ^ 2)

theorem r1_range : 0 ≤ r1 ∧ r1 ≤ 2 / 100 := by
  obtain ⟨h1, h2⟩ := e1_range
  refine ⟨Real.sqrt_nonneg _, ?_⟩
  unfold r1
  rw [Real.sqrt_le_left (by norm_num)]
  nlinarith

theorem r2_range : 0 ≤ r2 ∧ r2 ≤ 130 / 10000 := by
  obtain ⟨h1, h2⟩ := e1_range
  obtain ⟨h3, h4⟩ := e2_range
  have : Real.sqrt ((e2 / (1 / 50)) ^ 2 + e1 ^ 2) ≤ 65 / 100 := by
    rw [Real.sqrt_le_left (by norm_num)]
    have h5 : e2 / (1 / 50) = 50 * e2 := by ring
    rw [h5]
    nlinarith
  have h0 := Real.sqrt_nonneg ((e2 / (1 / 50)) ^ 2 + e1 ^ 2)
  unfold r2
  constructor <;> linarith

/-- The values at a point. -/
noncomputable def valuesAt (x psb esb ecls : ℝ) : Dict SVal :=
  [("pv", .num x), ("cls", .num x), ("sampling_pv", .pair psb esb), ("sampling_clb", .pair 1 e1),
   ("sampling_cls", .pair psb ecls)]

theorem point_at (h : List String → ℕ) (mu x psb esb ecls : ℝ) (hm : [("mu", mu)] ∈ hypos) (hx : 1 / 1000 < x)
    (hp : 0 < psb) (hsb : SampDist.pvErr (SampDist.sort (lsb [("mu", mu)])) x = .ok (psb, esb))
    (he : ecls = psb * Real.sqrt ((esb / psb) ^ 2 + e1 ^ 2)) :
    LimScr.samplingPoint h (samples h) (entry mu x) = .ok ([("mu", mu)], ⟨valuesAt x psb esb ecls, []⟩) := by
  have h1 : (samples h).clsb.pvErr h [("mu", mu)] x = .ok (psb, esb) := by
    unfold Samples.pvErr; rw [get_sb h _ hm, bind_ok, hsb]
  have h2 : (samples h).cl_b.pvErr h [("mu", mu)] x = .ok (1, e1) := by
    unfold Samples.pvErr; rw [get_b h _ hm, bind_ok, lb_pvErr _ _ hx]
  have h3 : (samples h).pvErr h [("mu", mu)] x = .ok (psb, ecls) := by
    unfold CLsSamples.pvErr
    rw [h1, h2]
    simp [not_le.2 hp, he]
  unfold LimScr.samplingPoint
  have hpv : Dict.getItem (entry mu x).2.data.pvs "pv" = .ok x := by simp [entry, Dict.getItem, Dict.get?]
  have hh : (entry mu x).2.data.hypo = [("mu", mu)] := rfl
  rw [hpv, bind_ok, hh, h1, bind_ok, h2, bind_ok, h3, bind_ok]
  simp [entry, valuesAt, Dict.set]

/-- The raster with the sampling values. -/
noncomputable def filled : SRaster :=
  [([("mu", 0)], ⟨valuesAt (1 / 2) 1 e1 r1, []⟩), ([("mu", 1)], ⟨valuesAt (1 / 2) 1 e1 r1, []⟩),
   ([("mu", 2)], ⟨valuesAt (1 / 2) 1 e1 r1, []⟩), ([("mu", 3)], ⟨valuesAt (1 / 100) (1 / 50) e2 r2, []⟩)]

theorem filled_eq (h : List String → ℕ) : raster.mapM (LimScr.samplingPoint h (samples h)) = .ok filled := by
  have m0 : [("mu", (0 : ℝ))] ∈ hypos := by simp [hypos, raster, entry]
  have m1 : [("mu", (1 : ℝ))] ∈ hypos := by simp [hypos, raster, entry]
  have m2 : [("mu", (2 : ℝ))] ∈ hypos := by simp [hypos, raster, entry]
  have m3 : [("mu", (3 : ℝ))] ∈ hypos := by simp [hypos, raster, entry]
  have hr : r1 = 1 * Real.sqrt ((e1 / 1) ^ 2 + e1 ^ 2) := by simp [r1]
  have k0 := point_at h 0 (1 / 2) 1 e1 r1 m0 (by norm_num) (by norm_num) (lsb_pvErr _ (by simp)) hr
  have k1 := point_at h 1 (1 / 2) 1 e1 r1 m1 (by norm_num) (by norm_num) (lsb_pvErr _ (by norm_num)) hr
  have k2 := point_at h 2 (1 / 2) 1 e1 r1 m2 (by norm_num) (by norm_num) (lsb_pvErr _ (by norm_num)) hr
  have k3 := point_at h 3 (1 / 100) (1 / 50) e2 r2 m3 (by norm_num) (by norm_num) lsb_pvErr3 rfl
  unfold raster
  simp only [List.mapM_cons, List.mapM_nil, k0, k1, k2, k3, bind_ok, pure_ok]
  rfl

theorem knee_asy : Knee (1 / 2) (1 / 100) := ⟨by norm_num, by norm_num, by norm_num⟩

theorem knee_err (k a b : ℝ) (hk : k = 0 ∨ k = 1 ∨ k = -1) (ha : 0 ≤ a ∧ a ≤ 2 / 100) (hb : 0 ≤ b ∧ b ≤ 130 / 10000) :
    Knee (1 + k * a) (1 / 50 + k * b) := by
  obtain ⟨a0, a1⟩ := ha
  obtain ⟨b0, b1⟩ := hb
  rcases hk with rfl | rfl | rfl
  · exact ⟨by linarith, by linarith, by nlinarith⟩
  · exact ⟨by linarith, by linarith, by nlinarith⟩
  · exact ⟨by linarith, by linarith, by nlinarith⟩

theorem pts_asy (key : String) (hk : key = "pv" ∨ key = "cls") :
    Props.PointsAre key "mu" 0 filled (kneePts (1 / 2) (1 / 100)) := by
  rcases hk with rfl | rfl <;> simp [Props.PointsAre, filled, kneePts, valuesAt, Scan.value, Dict.get?]

theorem pts_pv (k : ℝ) : Props.PointsAre "sampling_pv" "mu" k filled (kneePts (1 + k * e1) (1 / 50 + k * e2)) := by
  simp [Props.PointsAre, filled, kneePts, valuesAt, Scan.value, Dict.get?]

theorem pts_cls (k : ℝ) : Props.PointsAre "sampling_cls" "mu" k filled (kneePts (1 + k * r1) (1 / 50 + k * r2)) := by
  simp [Props.PointsAre, filled, kneePts, valuesAt, Scan.value, Dict.get?]

theorem fast_pts (key : String) (hk : key = "pv" ∨ key = "cls") :
    Props.PointsAre key "mu" 0 (SRaster.ofRaster raster) (kneePts (1 / 2) (1 / 100)) := by
  rcases hk with rfl | rfl <;>
    simp [Props.PointsAre, SRaster.ofRaster, raster, entry, kneePts, Scan.value, Dict.get?]

open LimScr in
/-- The script computes all limits from these toys. -/
theorem finish_ok (h : List String → ℕ) (run : Run) (ht : run.truncate = none) (hb : run.bands = none) (n : String)
    (hn : poi0 run.c.m = .ok n) (S : List (Smp × Smp)) :
    ∃ a1 a2 a3 a4 a5 a6, finish SplineEx.lib h run ⟨raster, raster, S⟩ (samples h) =
      .ok ⟨run.cl, n, some a6, some a4, some a5, some a3, some a1, some a2, []⟩ := by
  have hpois : Raster.haveCompatiblePois (raster.map Prod.fst) = ["mu"] := by
    simp [raster, entry, Raster.haveCompatiblePois, Dict.keys]
  have i1 : ∀ key, key = "pv" ∨ key = "cls" ∨ key = "sampling_pv" ∨ key = "sampling_cls" → Scan.init filled key = .ok () := by
    intro key hk
    unfold Scan.init
    rw [if_pos]
    intro e he
    left
    simp only [filled, List.mem_cons, List.not_mem_nil, or_false] at he
    rcases he with rfl | rfl | rfl | rfl <;> rcases hk with rfl | rfl | rfl | rfl <;> simp [valuesAt, Dict.keys]
  have i2 : ∀ key, key = "pv" ∨ key = "cls" → Scan.init (SRaster.ofRaster raster) key = .ok () := by
    intro key hk
    unfold Scan.init
    rw [if_pos]
    intro e he
    left
    simp only [SRaster.ofRaster, raster, entry, List.map_cons, List.map_nil, List.mem_cons, List.not_mem_nil, or_false] at he
    rcases he with rfl | rfl | rfl | rfl <;> rcases hk with rfl | rfl <;> simp [Dict.keys]
  have hp : Scan.findPoi ["mu"] none = .ok "mu" := rfl
  obtain ⟨a1, h1⟩ := knee_limit knee_asy (pts_asy "pv" (Or.inl rfl)) run.cl
  obtain ⟨a4, h4⟩ := knee_limit knee_asy (pts_asy "cls" (Or.inr rfl)) run.cl
  obtain ⟨a2, h2⟩ := knee_limit knee_asy (fast_pts "pv" (Or.inl rfl)) run.cl
  obtain ⟨a5, h5⟩ := knee_limit knee_asy (fast_pts "cls" (Or.inr rfl)) run.cl
  have e1' : 0 ≤ e1 ∧ e1 ≤ 2 / 100 := ⟨e1_range.1, by linarith [e1_range.2]⟩
  have e2' : 0 ≤ e2 ∧ e2 ≤ 130 / 10000 := ⟨e2_range.1, by linarith [e2_range.2]⟩
  obtain ⟨a3, h3⟩ := knee_limitErr (knee_err 0 _ _ (Or.inl rfl) e1' e2') (knee_err 1 _ _ (Or.inr (Or.inl rfl)) e1' e2')
    (knee_err (-1) _ _ (Or.inr (Or.inr rfl)) e1' e2') (pts_pv 0) (pts_pv 1) (pts_pv (-1)) run.cl
  obtain ⟨a6, h6⟩ := knee_limitErr (knee_err 0 _ _ (Or.inl rfl) r1_range r2_range)
    (knee_err 1 _ _ (Or.inr (Or.inl rfl)) r1_range r2_range)
    (knee_err (-1) _ _ (Or.inr (Or.inr rfl)) r1_range r2_range) (pts_cls 0) (pts_cls 1) (pts_cls (-1)) run.cl
  refine ⟨a1, a2, a3, a4, a5, a6, ?_⟩
  have hc : cutStage h run.truncate (samples h) = .ok (samples h) := by rw [ht]; rfl
  unfold finish
  rw [hc, bind_ok]
  dsimp only
  rw [hpois, filled_eq h]
  simp only [firstPoi, bind_ok, hb, bandStage, bandLimits, upper, upperErr, hp, i1 "pv" (by simp), i1 "cls" (by simp),
    i1 "sampling_pv" (by simp), i1 "sampling_cls" (by simp), i2 "pv" (by simp), i2 "cls" (by simp), h1, h2, h3, h4, h5, h6, hn]
  rfl

end LimDemo
end Verif
