import Verif.Model.Resample
import Verif.Props.Scans
/-!
# C82: resampled scans and two-dimensional best fits
-/
namespace Verif.Props
open Verif

theorem resample_ok (L : SplineLib) (key poi : String) (r : SRaster) (pts : List (ℝ × ℝ)) (hp : PointsAre key poi 0 r pts)
    (hinc : (pts.map Prod.fst).Pairwise (· < ·)) (order : ℕ) (h1 : 1 ≤ order) (h5 : order ≤ 5) (hlen : order < pts.length)
    (n : ℕ) (a b : ℝ × ℝ) (ha : pts.head? = some a) (hb : pts.getLast? = some b) :
    Scan.resample L key poi r n order = .ok (Scan.linspace a.1 b.1 n,
      (Scan.linspace a.1 b.1 n).map (L.eval ⟨pts.map Prod.fst, pts.map Prod.snd, order⟩)) ∧
    Scan.spline (pts.map Prod.fst) (pts.map Prod.snd) order = .ok ⟨pts.map Prod.fst, pts.map Prod.snd, order⟩ := by
  have hs : Scan.spline (pts.map Prod.fst) (pts.map Prod.snd) order = .ok ⟨pts.map Prod.fst, pts.map Prod.snd, order⟩ := by
    unfold Scan.spline
    rw [if_pos]
    exact ⟨hinc, by simp, h1, h5, by simpa using hlen⟩
  refine ⟨?_, hs⟩
  unfold Scan.resample Scan.spline1
  rw [points_of key poi 0 r pts hp]
  simp only [bind_ok, hs]
  have he : Scan.endPoints (pts.map Prod.fst) = .ok (a.1, b.1) := by
    simp [Scan.endPoints, ha, hb]
  rw [he]; rfl

theorem linspace_length (a b : ℝ) (n : ℕ) : (Scan.linspace a b n).length = n := by simp [Scan.linspace]

theorem linspace_get (a b : ℝ) (n : ℕ) (hn : 2 ≤ n) (i : ℕ) (hi : i < (Scan.linspace a b n).length) :
    (Scan.linspace a b n)[i] = a + i * ((b - a) / (n - 1)) := by
  simp only [Scan.linspace, List.getElem_map, List.getElem_range]
  rw [if_neg (by omega)]

/-- C82: a resampled scan.  The scan has points with increasing POI values, more than the order of the spline (1 to 5).  Then
`resample(n, order)` returns `n` POI values and `n` result values: the POI values go in equal steps from the first point of the
scan to the last; the result values are those of one continuous curve, the same for every `n`, that goes through all the points
of the scan; in particular the end values are those of the scan. -/
theorem c82_resample (L : SplineLib) (hL : L.Correct) (key poi : String) (r : SRaster) (pts : List (ℝ × ℝ))
    (hp : PointsAre key poi 0 r pts) (hinc : (pts.map Prod.fst).Pairwise (· < ·)) (order : ℕ) (h1 : 1 ≤ order) (h5 : order ≤ 5)
    (hlen : order < pts.length) :
    ∃ f : ℝ → ℝ, Continuous f ∧ (∀ p ∈ pts, f p.1 = p.2) ∧ ∀ n, 2 ≤ n →
      ∃ grid vals, Scan.resample L key poi r n order = .ok (grid, vals) ∧ grid.length = n ∧ vals = grid.map f ∧
        (∃ step : ℝ, 0 < step ∧ ∀ i : Fin grid.length, ∀ a ∈ pts.head?, grid[i] = a.1 + i * step) ∧
        (∀ a ∈ pts.head?, grid.head? = some a.1 ∧ vals.head? = some a.2) ∧
        (∀ b ∈ pts.getLast?, grid.getLast? = some b.1 ∧ vals.getLast? = some b.2) := by
  have hne : pts ≠ [] := by rintro rfl; simp at hlen
  obtain ⟨a, ha⟩ : ∃ a, pts.head? = some a := ⟨_, List.head?_eq_some_head hne⟩
  obtain ⟨b, hb⟩ : ∃ b, pts.getLast? = some b := ⟨_, List.getLast?_eq_some_getLast hne⟩
  have hs := (resample_ok L key poi r pts hp hinc order h1 h5 hlen 0 a b ha hb).2
  set s : Spl := ⟨pts.map Prod.fst, pts.map Prod.snd, order⟩
  have hthru : ∀ p ∈ pts, L.eval s p.1 = p.2 := fun p hp' => by
    refine hL.interp _ _ _ _ hs p ?_
    rw [List.zip_map', List.mem_map]
    exact ⟨p, hp', rfl⟩
  have ham : a ∈ pts := List.mem_of_head? ha
  have hbm : b ∈ pts := List.mem_of_getLast? hb
  have hlt : a.1 < b.1 := by
    obtain ⟨l, rfl⟩ : ∃ l, pts = a :: l := by
      cases pts with
      | nil => cases ha
      | cons x l => exact ⟨l, by simp at ha; rw [ha]⟩
    have hl : l ≠ [] := by rintro rfl; simp at hlen; omega
    have : b ∈ l := by
      rw [List.getLast?_cons_of_ne_nil hl] at hb
      exact List.mem_of_getLast? hb
    rw [List.map_cons, List.pairwise_cons] at hinc
    exact hinc.1 _ (List.mem_map.2 ⟨b, this, rfl⟩)
  refine ⟨L.eval s, hL.cont _ _ _ _ hs, hthru, fun n hn => ?_⟩
  have hn' : (0 : ℝ) < (n : ℝ) - 1 := by
    have : (2 : ℝ) ≤ n := by exact_mod_cast hn
    linarith
  have hgl : (Scan.linspace a.1 b.1 n).getLast? = some b.1 := by
    rw [List.getLast?_eq_getElem?, linspace_length, List.getElem?_eq_getElem (by rw [linspace_length]; omega),
      linspace_get _ _ _ hn]
    congr 1
    rw [Nat.cast_sub (by omega)]
    push_cast
    field_simp
    ring
  have hgh : (Scan.linspace a.1 b.1 n).head? = some a.1 := by
    rw [List.head?_eq_getElem?, List.getElem?_eq_getElem (by rw [linspace_length]; omega), linspace_get _ _ _ hn]
    simp
  refine ⟨_, _, (resample_ok L key poi r pts hp hinc order h1 h5 hlen n a b ha hb).1, linspace_length _ _ _, rfl,
    ⟨(b.1 - a.1) / (n - 1), div_pos (by linarith) hn', fun i c hc => ?_⟩, fun c hc => ?_, fun c hc => ?_⟩
  · rw [ha] at hc
    cases hc
    exact linspace_get _ _ _ hn i i.2
  · rw [ha] at hc
    cases hc
    refine ⟨hgh, ?_⟩
    rw [List.head?_map, hgh, Option.map_some, hthru a ham]
  · rw [hb] at hc
    cases hc
    refine ⟨hgl, ?_⟩
    rw [List.getLast?_map, hgl, Option.map_some, hthru b hbm]

/-- C82: refining keeps the points.  A scan with `m + 1` equally spaced points, resampled with `k` intervals for each of its own
ones, has the points of the scan at every `k`-th place. -/
theorem c82_resample_refines (L : SplineLib) (hL : L.Correct) (key poi : String) (r : SRaster) (pts : List (ℝ × ℝ))
    (hp : PointsAre key poi 0 r pts) (x0 d : ℝ) (hd : 0 < d) (hx : ∀ j : Fin pts.length, pts[j].1 = x0 + j * d)
    (order : ℕ) (h1 : 1 ≤ order) (h5 : order ≤ 5) (m : ℕ) (hm : pts.length = m + 1) (hlen : order < pts.length)
    (k : ℕ) (hk : 0 < k) :
    ∃ grid vals, Scan.resample L key poi r (k * m + 1) order = .ok (grid, vals) ∧
      ∀ j : Fin pts.length, grid[k * j.1]? = some pts[j].1 ∧ vals[k * j.1]? = some pts[j].2 := by
  have hinc : (pts.map Prod.fst).Pairwise (· < ·) := by
    rw [List.pairwise_map, List.pairwise_iff_getElem]
    intro i j hi hj hij
    have e1 := hx ⟨i, hi⟩
    have e2 := hx ⟨j, hj⟩
    simp only [Fin.getElem_fin] at e1 e2
    rw [e1, e2]
    have : (i : ℝ) < j := by exact_mod_cast hij
    nlinarith
  have hm1 : 1 ≤ m := by omega
  have h0 : 0 < pts.length := by omega
  have ha : pts.head? = some pts[0] := by rw [List.head?_eq_getElem?, List.getElem?_eq_getElem h0]
  have hb : pts.getLast? = some pts[m] := by
    have e : pts.length - 1 = m := by omega
    have hlt : m < pts.length := by omega
    rw [List.getLast?_eq_getElem?, e, List.getElem?_eq_getElem hlt]
  obtain ⟨hr, hs⟩ := resample_ok L key poi r pts hp hinc order h1 h5 hlen (k * m + 1) _ _ ha hb
  have hkm : 1 ≤ k * m := Nat.mul_pos hk hm1
  have hgrid : ∀ j : Fin pts.length, (Scan.linspace pts[0].1 pts[m].1 (k * m + 1))[k * j.1]? = some pts[j].1 := by
    intro j
    have hj : j.1 ≤ m := by have := j.2; omega
    have hkj : k * j.1 ≤ k * m := Nat.mul_le_mul_left k hj
    rw [List.getElem?_eq_getElem (by rw [linspace_length]; omega), linspace_get _ _ _ (by omega)]
    congr 1
    have e0 := hx ⟨0, h0⟩
    have em := hx ⟨m, by omega⟩
    have ej := hx j
    simp only [Fin.getElem_fin] at e0 em ej ⊢
    rw [e0, em, ej]
    have hk0 : (k : ℝ) ≠ 0 := by positivity
    have hm0 : (m : ℝ) ≠ 0 := by
      have : (1 : ℝ) ≤ m := by exact_mod_cast hm1
      linarith
    push_cast
    have hden : (k : ℝ) * m + 1 - 1 = k * m := by ring
    rw [hden]
    field_simp
    ring
  refine ⟨_, _, hr, fun j => ⟨hgrid j, ?_⟩⟩
  rw [List.getElem?_map, hgrid j, Option.map_some]
  congr 1
  refine hL.interp _ _ _ _ hs pts[j] ?_
  rw [List.zip_map', List.mem_map]
  exact ⟨pts[j], by simp, rfl⟩

/-- C82: no resampling is made up.  Without points it is `IndexError`; with no more points than the order of the spline, or
with POI values that do not increase (points stored in another order, or twice), it is `ValueError`. -/
theorem c82_resample_refused (L : SplineLib) (key poi : String) (r : SRaster) (pts : List (ℝ × ℝ))
    (hp : PointsAre key poi 0 r pts) (n order : ℕ) :
    (pts = [] → Scan.resample L key poi r n order = .error .indexError) ∧
    (pts ≠ [] → pts.length ≤ order ∨ ¬ (pts.map Prod.fst).Pairwise (· < ·) →
      Scan.resample L key poi r n order = .error .valueError) := by
  constructor
  · rintro rfl
    unfold Scan.resample
    rw [points_of key poi 0 r [] hp]
    rfl
  · intro hne hbad
    have hs : Scan.spline (pts.map Prod.fst) (pts.map Prod.snd) order = .error .valueError := by
      unfold Scan.spline
      rw [if_neg]
      rintro ⟨g1, _, _, _, g5⟩
      rcases hbad with hb | hb
      · rw [List.length_map] at g5; omega
      · exact hb g1
    unfold Scan.resample Scan.spline1
    rw [points_of key poi 0 r pts hp]
    simp only [bind_ok, hs]
    have he : Scan.endPoints (pts.map Prod.fst) = .ok ((pts.head hne).1, (pts.getLast hne).1) := by
      simp [Scan.endPoints, List.head?_eq_some_head hne, List.getLast?_eq_some_getLast hne]
    rw [he]; rfl

/-- The points of a two-dimensional scan: the two POI values and the result value of each point of the raster. -/
def Points2Are (key poi1 poi2 : String) (r : SRaster) (pts : List (ℝ × ℝ × ℝ)) : Prop :=
  List.Forall₂ (fun (e : Hypo × SPoint) p => Dict.get? e.1 poi1 = some p.1 ∧ Dict.get? e.1 poi2 = some p.2.1 ∧
    Scan.value key e.2 = .ok p.2.2) r pts

/-- C82: the best fit of a two-dimensional scan.  For a minimiser that, when it reports success, has not gone uphill, and a
scan with points whose surface can be built, `best_fit` returns a point at which the surface is at most its value at `p`, the
first of the points of the scan with the smallest result value; if the minimiser reports a failure it returns the place of
`p`. -/
theorem c82_best_fit (L : Scan.SurfaceLib) (hmin : ∀ f x0, (L.minimize f x0).1 = true → f (L.minimize f x0).2 ≤ f x0)
    (key poi1 poi2 : String) (r : SRaster) (pts : List (ℝ × ℝ × ℝ)) (hp : Points2Are key poi1 poi2 r pts) (hne : pts ≠ [])
    (f : ℝ → ℝ → ℝ) (hf : L.build (pts.map (·.1)) (pts.map (·.2.1)) (pts.map (·.2.2)) 3 = .ok f) :
    ∃ pre p post b, pts = pre ++ p :: post ∧ (∀ q ∈ pre, p.2.2 < q.2.2) ∧ (∀ q ∈ post, p.2.2 ≤ q.2.2) ∧
      Scan.bestFit2 L key poi1 poi2 r = .ok b ∧ f b.1 b.2 ≤ f p.1 p.2.1 ∧
      ((L.minimize (fun q => f q.1 q.2) (p.1, p.2.1)).1 = false → b = (p.1, p.2.1)) := by
  have hpts : Scan.points2 key poi1 poi2 r = .ok (pts.map (·.1), pts.map (·.2.1), pts.map (·.2.2)) := by
    have : r.mapM (fun e : Hypo × SPoint => (do
        let x ← Dict.getItem e.1 poi1
        let y ← Dict.getItem e.1 poi2
        let z ← Scan.value key e.2
        return (x, y, z) : Except PyErr (ℝ × ℝ × ℝ))) = .ok pts := by
      rw [mapM_ok_iff]
      refine hp.imp ?_
      intro e q hq
      simp only [Dict.getItem, hq.1, hq.2.1, hq.2.2, bind_ok, pure_ok]
    unfold Scan.points2
    rw [this]
    rfl
  have hrne : r ≠ [] := by
    rintro rfl
    cases hp
    exact hne rfl
  have hval : ∀ e ∈ r, ∃ v, Scan.value key e.2 = .ok v := by
    intro e he
    obtain ⟨q, hq, _⟩ := forall₂_all (Q := fun _ => True) hp (fun _ _ => trivial) e he
    exact ⟨_, hq.2.2⟩
  obtain ⟨hypo, v, r1, sp, r2, hm, hr, hv, hbefore, hafter⟩ := c38_minimum r key hrne hval
  have hp' := hp
  rw [hr] at hp'
  obtain ⟨pre, p, post, hsplit, f1, f2, f3⟩ : ∃ pre p post, pts = pre ++ p :: post ∧
      Points2Are key poi1 poi2 r1 pre ∧ (Dict.get? hypo poi1 = some p.1 ∧ Dict.get? hypo poi2 = some p.2.1 ∧
        Scan.value key sp = .ok p.2.2) ∧ Points2Are key poi1 poi2 r2 post := by
    obtain ⟨pre, p, post, g0, g1, g2, g3⟩ := forall₂_split (l := pts) (pre := r1) (b := (hypo, sp)) (post := r2)
      (R := fun q e => Dict.get? e.1 poi1 = some q.1 ∧ Dict.get? e.1 poi2 = some q.2.1 ∧ Scan.value key e.2 = .ok q.2.2) hp'.flip
    exact ⟨pre, p, post, g0, g1.flip, g2, g3.flip⟩
  have hvp : v = p.2.2 := by rw [hv] at f2; exact Except.ok.inj (ε := PyErr) f2.2.2
  subst hvp
  refine ⟨pre, p, post, Scan.bestOr (L.minimize (fun q => f q.1 q.2) (p.1, p.2.1)) (p.1, p.2.1), hsplit, ?_, ?_, ?_, ?_, ?_⟩
  · intro q hq
    obtain ⟨e, he, hw⟩ := forall₂_all (Q := fun e => ∀ w, Scan.value key e.2 = .ok w → p.2.2 < w) f1.flip hbefore q hq
    exact hw _ he.2.2
  · intro q hq
    obtain ⟨e, he, hw⟩ := forall₂_all (Q := fun e => ∀ w, Scan.value key e.2 = .ok w → p.2.2 ≤ w) f3.flip hafter q hq
    exact hw _ he.2.2
  · simp only [Scan.bestFit2, Scan.spline2, hpts, bind_ok, hf, hm, Dict.getItem, f2.1, f2.2.1, pure_ok]
  · unfold Scan.bestOr
    by_cases hs : (L.minimize (fun q => f q.1 q.2) (p.1, p.2.1)).1 = false
    · rw [if_pos hs]
    · rw [if_neg hs]
      exact hmin (fun q => f q.1 q.2) (p.1, p.2.1) (by simpa using hs)
  · intro hs
    unfold Scan.bestOr
    rw [if_pos hs]

/-- The scan of `demoScan` (four points in steps of 1) can be resampled. -/
example : ∃ grid vals, Scan.resample SplineEx.lib "cls" "mu" demoScan 7 3 = .ok (grid, vals) ∧ grid.length = 7 := by
  obtain ⟨h1, _, h3⟩ := demoPts_ok
  obtain ⟨f, _, _, hf⟩ := c82_resample SplineEx.lib SplineEx.correct "cls" "mu" demoScan demoPts h1 h3 3 (by norm_num) (by norm_num)
    (by simp [demoPts])
  obtain ⟨grid, vals, g1, g2, _⟩ := hf 7 (by norm_num)
  exact ⟨grid, vals, g1, g2⟩

example : ∀ j : Fin demoPts.length, demoPts[j].1 = 0 + j * 1 := by
  intro j
  fin_cases j <;> norm_num [demoPts]

/-- Stored in decreasing order, these points are refused. -/
example : ¬ ((demoPts.reverse).map Prod.fst).Pairwise (· < ·) := by
  norm_num [demoPts]

/-- A two-dimensional scan with three points, a surface through them, and a minimiser that stays where it is. -/
example : ∃ (L : Scan.SurfaceLib) (r : SRaster) (pts : List (ℝ × ℝ × ℝ)) (f : ℝ → ℝ → ℝ),
    (∀ f x0, (L.minimize f x0).1 = true → f (L.minimize f x0).2 ≤ f x0) ∧ Points2Are "tmu" "a" "b" r pts ∧ pts ≠ [] ∧
    L.build (pts.map (·.1)) (pts.map (·.2.1)) (pts.map (·.2.2)) 3 = .ok f := by
  refine ⟨⟨fun _ _ _ _ => .ok fun x y => x ^ 2 + y ^ 2, fun _ x0 => (true, x0)⟩,
    [([("a", 0), ("b", 1)], ⟨[], [("tmu", .num 1)]⟩), ([("a", 0), ("b", 0)], ⟨[], [("tmu", .num 0)]⟩),
      ([("a", 2), ("b", 0)], ⟨[], [("tmu", .num 4)]⟩)], [(0, 1, 1), (0, 0, 0), (2, 0, 4)], _, fun f x0 _ => le_refl _, ?_,
    by simp, rfl⟩
  simp [Points2Are, Scan.value, Dict.get?, Dict.getItem, Dict.keys]

end Verif.Props
