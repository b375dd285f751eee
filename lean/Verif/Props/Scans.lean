import Verif.Lemmas.Scans
import Verif.Lemmas.SplineEx
/-!
# C38, C54, C55: scans

`L.Correct` is the documented behaviour of scipy's splines (`Spec/Spline.lean`).
-/
namespace Verif.Props
open Verif Classical

/-! ## C38 -/

/-- C38.  A scan can be built only if every point of the raster has a value for its key, and then
that value can be read at every point, the p-value having priority over the test statistic. -/
theorem c38_readable (r : SRaster) (key : String) :
    (Scan.init r key = .ok () ↔ ∀ e ∈ r, ∃ v, Scan.value key e.2 = .ok v) ∧
    (∀ e, Scan.init r key = .error e → e = .keyError) := by
  have hv : ∀ p : SPoint, (∃ v, Scan.value key p = .ok v) ↔
      (key ∈ Dict.keys p.pvs ∨ key ∈ Dict.keys p.test_statistics) := by
    intro p
    simp only [Scan.value]
    cases h : Dict.get? p.pvs key with
    | some v =>
      have : key ∈ Dict.keys p.pvs := by
        by_contra hn; rw [(Dict.get?_eq_none_iff _ _).2 hn] at h; cases h
      cases v <;> simp [this]
    | none =>
      have hn : key ∉ Dict.keys p.pvs := (Dict.get?_eq_none_iff _ _).1 h
      cases h2 : Dict.get? p.test_statistics key with
      | some v =>
        have : key ∈ Dict.keys p.test_statistics := by
          by_contra hn; rw [(Dict.get?_eq_none_iff _ _).2 hn] at h2; cases h2
        cases v <;> simp [this, Dict.getItem, h2]
      | none =>
        have hn2 : key ∉ Dict.keys p.test_statistics := (Dict.get?_eq_none_iff _ _).1 h2
        simp [hn, hn2, Dict.getItem, h2]
  constructor
  · simp only [Scan.init, hv]
    split_ifs with h
    · simpa using h
    · simpa using h
  · intro e he
    simp only [Scan.init] at he
    split_ifs at he
    cases he; rfl

theorem entries_ok (key : String) (r : SRaster) (h : ∀ e ∈ r, ∃ v, Scan.value key e.2 = .ok v) :
    ∃ l, r.mapM (Scan.entry key) = .ok l ∧
      List.Forall₂ (fun (e : Hypo × SPoint) p => p.1 = e.1 ∧ Scan.value key e.2 = .ok p.2) r l := by
  induction r with
  | nil => exact ⟨[], rfl, .nil⟩
  | cons e r ih =>
    obtain ⟨v, hv⟩ := h e (by simp)
    obtain ⟨l, h1, h2⟩ := ih (fun e he => h e (by simp [he]))
    refine ⟨(e.1, v) :: l, ?_, .cons ⟨rfl, hv⟩ h2⟩
    rw [List.mapM_cons, h1]
    simp [Scan.entry, hv]

theorem forall₂_split {α β : Type} {R : α → β → Prop} {l : List α} {pre post : List β} {b : β}
    (h : List.Forall₂ R l (pre ++ b :: post)) :
    ∃ l1 a l2, l = l1 ++ a :: l2 ∧ List.Forall₂ R l1 pre ∧ R a b ∧ List.Forall₂ R l2 post := by
  induction pre generalizing l with
  | nil =>
    cases h with
    | cons h1 h2 => exact ⟨[], _, _, rfl, .nil, h1, h2⟩
  | cons p pre ih =>
    cases h with
    | cons h1 h2 =>
      obtain ⟨l1, a, l2, rfl, h3, h4, h5⟩ := ih h2
      exact ⟨_ :: l1, a, l2, rfl, .cons h1 h3, h4, h5⟩

theorem forall₂_all {α β : Type} {R : α → β → Prop} {Q : β → Prop} {l : List α} {m : List β}
    (h : List.Forall₂ R l m) (hq : ∀ b ∈ m, Q b) : ∀ a ∈ l, ∃ b, R a b ∧ Q b := by
  induction h with
  | nil => simp
  | cons h1 _ ih =>
    intro a ha
    rcases List.mem_cons.1 ha with rfl | ha
    · exact ⟨_, h1, hq _ (by simp)⟩
    · exact ih (fun b hb => hq b (by simp [hb])) a ha

/-- C38.  The minimum of a scan over a non-empty raster is the value of one of its points, no value is
smaller, and the hypothesis reported is the first with this value. -/
theorem c38_minimum (r : SRaster) (key : String) (hne : r ≠ [])
    (h : ∀ e ∈ r, ∃ v, Scan.value key e.2 = .ok v) :
    ∃ hypo v r1 p r2, Scan.minimum key r = .ok (hypo, v) ∧ r = r1 ++ (hypo, p) :: r2 ∧
      Scan.value key p = .ok v ∧ (∀ e ∈ r1, ∀ w, Scan.value key e.2 = .ok w → v < w) ∧
      (∀ e ∈ r2, ∀ w, Scan.value key e.2 = .ok w → v ≤ w) := by
  obtain ⟨l, h1, h2⟩ := entries_ok key r h
  cases l with
  | nil => cases h2; exact absurd rfl hne
  | cons a l =>
    obtain ⟨pre, post, h3, h4, h5⟩ := Scan.pyMin_spec a l
    have h2' := h2
    rw [h3] at h2'
    obtain ⟨r1, e, r2, rfl, f1, f2, f3⟩ := forall₂_split h2'
    refine ⟨(Scan.pyMin a l).1, (Scan.pyMin a l).2, r1, e.2, r2, ?_, ?_, f2.2, ?_, ?_⟩
    · simp only [Scan.minimum, h1, bind_ok, pure_ok]
    · rw [f2.1]
    · intro e' he w hw
      obtain ⟨b, hb, hq⟩ := forall₂_all f1 h4 e' he
      rw [hb.2] at hw; cases hw; exact hq
    · intro e' he w hw
      obtain ⟨b, hb, hq⟩ := forall₂_all f3 h5 e' he
      rw [hb.2] at hw; cases hw; exact hq

/-- C38.  The same for the maximum. -/
theorem c38_maximum (r : SRaster) (key : String) (hne : r ≠ [])
    (h : ∀ e ∈ r, ∃ v, Scan.value key e.2 = .ok v) :
    ∃ hypo v r1 p r2, Scan.maximum key r = .ok (hypo, v) ∧ r = r1 ++ (hypo, p) :: r2 ∧
      Scan.value key p = .ok v ∧ (∀ e ∈ r1, ∀ w, Scan.value key e.2 = .ok w → w < v) ∧
      (∀ e ∈ r2, ∀ w, Scan.value key e.2 = .ok w → w ≤ v) := by
  obtain ⟨l, h1, h2⟩ := entries_ok key r h
  cases l with
  | nil => cases h2; exact absurd rfl hne
  | cons a l =>
    obtain ⟨pre, post, h3, h4, h5⟩ := Scan.pyMax_spec a l
    have h2' := h2
    rw [h3] at h2'
    obtain ⟨r1, e, r2, rfl, f1, f2, f3⟩ := forall₂_split h2'
    refine ⟨(Scan.pyMax a l).1, (Scan.pyMax a l).2, r1, e.2, r2, ?_, ?_, f2.2, ?_, ?_⟩
    · simp only [Scan.maximum, h1, bind_ok, pure_ok]
    · rw [f2.1]
    · intro e' he w hw
      obtain ⟨b, hb, hq⟩ := forall₂_all f1 h4 e' he
      rw [hb.2] at hw; cases hw; exact hq
    · intro e' he w hw
      obtain ⟨b, hb, hq⟩ := forall₂_all f3 h5 e' he
      rw [hb.2] at hw; cases hw; exact hq

/-- C38.  Values with errors: the variation shifts the value by that many errors; without error
information a non-zero variation raises `TypeError`. -/
theorem c38_variation (key : String) (p : SPoint) (x e k : ℝ) :
    (Dict.get? p.pvs key = some (.pair x e) → Scan.value key p k = .ok (x + k * e)) ∧
    (Dict.get? p.pvs key = some (.num x) → k ≠ 0 → Scan.value key p k = .error .typeError) := by
  constructor
  · intro h; simp [Scan.value, h]
  · intro h hk; simp [Scan.value, h, hk]

noncomputable def demoScan : SRaster :=
  [([("mu", 0)], ⟨[("cls", .num 1)], [("tmu", .num 0)]⟩),
   ([("mu", 1)], ⟨[("cls", .num (1/2))], [("tmu", .num 1)]⟩),
   ([("mu", 2)], ⟨[("cls", .num (1/10))], [("tmu", .num 4)]⟩),
   ([("mu", 3)], ⟨[("cls", .pair (1/100) (1/1000))], [("tmu", .num 9)]⟩)]

example : demoScan ≠ [] ∧ (∀ e ∈ demoScan, ∃ v, Scan.value "cls" e.2 = .ok v) ∧
    ∀ e ∈ demoScan, ∃ v, Scan.value "tmu" e.2 = .ok v := by
  refine ⟨by simp [demoScan], ?_, ?_⟩ <;>
  · intro e he
    simp only [demoScan, List.mem_cons, List.not_mem_nil, or_false] at he
    rcases he with rfl | rfl | rfl | rfl <;> simp [Scan.value, Dict.get?, Dict.getItem]

/-! ## C54: upper limits -/

/-- The points of a scan: POI value and value, in the order of the raster. -/
def PointsAre (key poi : String) (v : ℝ) (r : SRaster) (pts : List (ℝ × ℝ)) : Prop :=
  List.Forall₂ (fun (e : Hypo × SPoint) p => Dict.get? e.1 poi = some p.1 ∧
    Scan.value key e.2 v = .ok p.2) r pts

theorem points_of (key poi : String) (v : ℝ) (r : SRaster) (pts : List (ℝ × ℝ))
    (h : PointsAre key poi v r pts) :
    Scan.points key poi r v = .ok (pts.map Prod.fst, pts.map Prod.snd) := by
  have : r.mapM (Scan.point key poi v) = .ok pts := by
    rw [mapM_ok_iff]
    refine h.imp ?_
    intro e p hp
    simp only [Scan.point, Dict.getItem, hp.1, hp.2, bind_ok, pure_ok]
  simp only [Scan.points, this, bind_ok, pure_ok]

theorem points_ok {key poi : String} {v : ℝ} {r : SRaster} {l : List ℝ × List ℝ}
    (h : Scan.points key poi r v = .ok l) :
    ∃ pts, PointsAre key poi v r pts ∧ l = (pts.map Prod.fst, pts.map Prod.snd) := by
  simp only [Scan.points] at h
  obtain ⟨pts, hp, h'⟩ := bind_eq_ok.1 h
  simp only [pure_ok, Except.ok.injEq] at h'
  refine ⟨pts, ?_, h'.symm⟩
  rw [mapM_ok_iff] at hp
  refine hp.imp ?_
  intro e p hep
  simp only [Scan.point] at hep
  obtain ⟨x, hx, h1⟩ := bind_eq_ok.1 hep
  obtain ⟨y, hy, h2⟩ := bind_eq_ok.1 h1
  simp only [pure_ok, Except.ok.injEq] at h2
  subst h2
  exact ⟨(Dict.getItem_ok).1 hx, hy⟩

theorem zip_map_fst_snd (pts : List (ℝ × ℝ)) : (pts.map Prod.fst).zip (pts.map Prod.snd) = pts := by
  induction pts with
  | nil => rfl
  | cons p pts ih => simp [ih]

/-- The points that carry a positive value. -/
noncomputable def positive (pts : List (ℝ × ℝ)) : List (ℝ × ℝ) := pts.filter (fun p => 0 < p.2)

/-- The curve in which crossings are searched in log scale: `level * exp` of the cubic spline through
the logarithms of the positive values over the level. -/
noncomputable def logCurve (L : SplineLib) (pts : List (ℝ × ℝ)) (level : ℝ) (x : ℝ) : ℝ :=
  level * Real.exp (L.eval ⟨(positive pts).map Prod.fst,
    (positive pts).map (fun p => Real.log (p.2 / level)), 3⟩ x)

/-- `x` is between two of the POI values of the points. -/
def Between (pts : List (ℝ × ℝ)) (x : ℝ) : Prop := (∃ a ∈ pts, a.1 ≤ x) ∧ (∃ b ∈ pts, x ≤ b.1)

theorem crossings_log (L : SplineLib) (xs : List (ℝ × ℝ)) (level : ℝ) (h4 : 4 ≤ (positive xs).length)
    (hinc : ((positive xs).map Prod.fst).Pairwise (· < ·)) :
    Scan.spline ((positive xs).map Prod.fst) ((positive xs).map (fun p => Real.log (p.2 / level))) 3 =
        .ok ⟨(positive xs).map Prod.fst, (positive xs).map (fun p => Real.log (p.2 / level)), 3⟩ ∧
    Scan.interpolateCrossings L (xs.map Prod.fst) (xs.map Prod.snd) level 3 true =
      .ok (some (L.roots ⟨(positive xs).map Prod.fst,
        (positive xs).map (fun p => Real.log (p.2 / level)), 3⟩)) := by
  have hs : Scan.spline ((positive xs).map Prod.fst)
      ((positive xs).map (fun p => Real.log (p.2 / level))) 3 =
        .ok ⟨(positive xs).map Prod.fst, (positive xs).map (fun p => Real.log (p.2 / level)), 3⟩ := by
    simp only [Scan.spline]
    rw [if_pos ⟨hinc, by simp, by norm_num, by norm_num, by simp; omega⟩]
  refine ⟨hs, ?_⟩
  simp only [Scan.interpolateCrossings, Scan.interpPoints, if_true, zip_map_fst_snd]
  have e1 : (((xs.filter (fun p => 0 < p.2)).map (fun p => (p.1, Real.log (p.2 / level)))).length) =
      (positive xs).length := by simp [positive]
  have hn1 : ¬ (positive xs).length < 2 := by omega
  have hn2 : ¬ (positive xs).length < 3 + 1 := by omega
  rw [e1, if_neg hn1, if_neg hn2]
  simp only [List.map_map]
  have e2 : (xs.filter (fun p => decide (0 < p.2))).map (Prod.fst ∘ fun p => (p.1, Real.log (p.2 / level))) =
      (positive xs).map Prod.fst := rfl
  have e3 : (xs.filter (fun p => decide (0 < p.2))).map (Prod.snd ∘ fun p => (p.1, Real.log (p.2 / level))) =
      (positive xs).map (fun p => Real.log (p.2 / level)) := rfl
  rw [e2, e3, hs]
  rfl

/-- C54.  With at least 4 positive p-values at increasing POI values, the curve used by the scan goes
through all the positive p-values and is continuous; a limit that is reported lies within the
scanned range, the curve takes the value 0.05 there, and (if the curve crosses 0.05 finitely often)
nowhere before. -/
theorem c54_limit_is_crossing (L : SplineLib) (hL : L.Correct) (key poi : String) (r : SRaster)
    (pts : List (ℝ × ℝ)) (hp : PointsAre key poi 0 r pts) (h4 : 4 ≤ (positive pts).length)
    (hinc : ((positive pts).map Prod.fst).Pairwise (· < ·)) :
    (∀ p ∈ pts, 0 < p.2 → logCurve L pts (1 - 95/100) p.1 = p.2) ∧
    Continuous (logCurve L pts (1 - 95/100)) ∧
    ∀ x, Scan.limit L key poi r = .ok (some x) →
      Between pts x ∧ logCurve L pts (1 - 95/100) x = 1 - 95/100 ∧
      ({y | Between (positive pts) y ∧ logCurve L pts (1 - 95/100) y = 1 - 95/100}.Finite →
        ∀ y, Between (positive pts) y → y < x → logCurve L pts (1 - 95/100) y ≠ 1 - 95/100) := by
  set lv : ℝ := 1 - 95/100 with hlv
  have hlv0 : 0 < lv := by rw [hlv]; norm_num
  obtain ⟨hs, hc⟩ := crossings_log L pts lv h4 hinc
  set s : Spl := ⟨(positive pts).map Prod.fst, (positive pts).map (fun p => Real.log (p.2 / lv)), 3⟩ with hsdef
  have hcurve : ∀ x, logCurve L pts lv x = lv * Real.exp (L.eval s x) := fun x => rfl
  have hzero : ∀ x, logCurve L pts lv x = lv ↔ L.eval s x = 0 := by
    intro x
    rw [hcurve]
    constructor
    · intro h
      have : Real.exp (L.eval s x) = 1 := by
        field_simp at h; exact h
      exact Real.exp_eq_one_iff _ |>.1 this
    · intro h; rw [h]; simp
  have hrange : ∀ x, s.InRange x ↔ Between (positive pts) x := by
    intro x
    simp [Spl.InRange, Between, hsdef]
  refine ⟨?_, ?_, ?_⟩
  · intro p hpm hpos
    rw [hcurve]
    have hmem : (p.1, Real.log (p.2 / lv)) ∈ ((positive pts).map Prod.fst).zip
        ((positive pts).map (fun p => Real.log (p.2 / lv))) := by
      rw [List.zip_map', List.mem_map]
      exact ⟨p, by simp [positive, hpm, hpos], rfl⟩
    have := hL.interp _ _ _ _ hs _ hmem
    simp only at this
    rw [this, Real.exp_log (by positivity)]
    field_simp
  · have := hL.cont _ _ _ _ hs
    unfold logCurve
    exact continuous_const.mul (Real.continuous_exp.comp this)
  · intro x hx
    have hroots : ∃ l, L.roots s = x :: l := by
      simp only [Scan.limit, Scan.crossings, points_of key poi 0 r pts hp, bind_ok, Scan.limitCl] at hx
      rw [hc] at hx
      simp only [bind_ok, Scan.lenOf] at hx
      cases hl : L.roots s with
      | nil => rw [hl] at hx; simp at hx
      | cons a l => rw [hl] at hx; simp at hx; exact ⟨l, by rw [hx]⟩
    obtain ⟨l, hl⟩ := hroots
    obtain ⟨g1, g2⟩ := hL.roots_sound _ _ _ hs x (by rw [hl]; simp)
    refine ⟨?_, (hzero x).2 g2, ?_⟩
    · obtain ⟨⟨a, ha, h1⟩, ⟨b, hb, h2⟩⟩ := (hrange x).1 g1
      exact ⟨⟨a, (List.mem_filter.1 ha).1, h1⟩, ⟨b, (List.mem_filter.1 hb).1, h2⟩⟩
    · intro hfin y hy hyx hcy
      have hfin' : {x | s.InRange x ∧ L.eval s x = 0}.Finite := by
        refine hfin.subset ?_
        rintro z ⟨hz1, hz2⟩
        exact ⟨(hrange z).1 hz1, (hzero z).2 hz2⟩
      have hym := hL.roots_complete _ _ _ hs hfin' y ((hrange y).2 hy) ((hzero y).1 hcy)
      rw [hl] at hym
      have hsort := hL.roots_sorted _ _ _ hs
      rw [hl] at hsort
      rcases List.mem_cons.1 hym with rfl | hym
      · exact lt_irrefl _ hyx
      · have := (List.pairwise_cons.1 hsort).1 y hym
        linarith

/-- C54.  If in addition one of the positive p-values is above 0.05 and another one below (and the curve
crosses 0.05 finitely often), a limit is reported. -/
theorem c54_limit_found (L : SplineLib) (hL : L.Correct) (key poi : String) (r : SRaster)
    (pts : List (ℝ × ℝ)) (hp : PointsAre key poi 0 r pts) (h4 : 4 ≤ (positive pts).length)
    (hinc : ((positive pts).map Prod.fst).Pairwise (· < ·))
    (hfin : {y | Between (positive pts) y ∧ logCurve L pts (1 - 95/100) y = 1 - 95/100}.Finite)
    (p q : ℝ × ℝ) (hpm : p ∈ pts) (hqm : q ∈ pts) (hp1 : 1 - 95/100 ≤ p.2) (hq1 : q.2 ≤ 1 - 95/100)
    (hq0 : 0 < q.2) :
    ∃ x, Scan.limit L key poi r = .ok (some x) := by
  obtain ⟨hc1, hc2, _⟩ := c54_limit_is_crossing L hL key poi r pts hp h4 hinc
  set lv : ℝ := 1 - 95/100 with hlv
  have hlv0 : 0 < lv := by rw [hlv]; norm_num
  obtain ⟨hs, hc⟩ := crossings_log L pts lv h4 hinc
  set s : Spl := ⟨(positive pts).map Prod.fst, (positive pts).map (fun p => Real.log (p.2 / lv)), 3⟩ with hsdef
  have hzero : ∀ x, logCurve L pts lv x = lv ↔ L.eval s x = 0 := by
    intro x
    show lv * Real.exp (L.eval s x) = lv ↔ _
    constructor
    · intro h
      have : Real.exp (L.eval s x) = 1 := by
        field_simp at h; exact h
      exact Real.exp_eq_one_iff _ |>.1 this
    · intro h; rw [h]; simp
  have hrange : ∀ x, s.InRange x ↔ Between (positive pts) x := by
    intro x
    simp [Spl.InRange, Between, hsdef]
  have hp0 : 0 < p.2 := lt_of_lt_of_le hlv0 hp1
  have hpp : p ∈ positive pts := by simp [positive, hpm, hp0]
  have hqp : q ∈ positive pts := by simp [positive, hqm, hq0]
  obtain ⟨x, hx, hxe⟩ : ∃ x ∈ Set.uIcc p.1 q.1, logCurve L pts lv x = lv := by
    have := intermediate_value_uIcc (hc2.continuousOn (s := Set.uIcc p.1 q.1))
    rw [hc1 p hpm hp0, hc1 q hqm hq0] at this
    obtain ⟨x, hx, hxe⟩ := this (Set.mem_uIcc.2 (Or.inr ⟨hq1, hp1⟩))
    exact ⟨x, hx, hxe⟩
  have hb : Between (positive pts) x := by
    rcases Set.mem_uIcc.1 hx with h | h
    · exact ⟨⟨p, hpp, h.1⟩, ⟨q, hqp, h.2⟩⟩
    · exact ⟨⟨q, hqp, h.1⟩, ⟨p, hpp, h.2⟩⟩
  have hfin' : {x | s.InRange x ∧ L.eval s x = 0}.Finite := by
    refine hfin.subset ?_
    rintro z ⟨hz1, hz2⟩
    exact ⟨(hrange z).1 hz1, (hzero z).2 hz2⟩
  have hm := hL.roots_complete _ _ _ hs hfin' x ((hrange x).2 hb) ((hzero x).1 hxe)
  simp only [Scan.limit, Scan.crossings, points_of key poi 0 r pts hp, bind_ok, Scan.limitCl]
  rw [hc]
  simp only [bind_ok, Scan.lenOf]
  cases hl : L.roots s with
  | nil => rw [hl] at hm; simp at hm
  | cons a l => exact ⟨a, by simp⟩

/-- What the code does with another confidence level: the `cl` given is ignored, and the 95% limit is
reported. -/
theorem c54_cl_ignored (L : SplineLib) (key poi : String) (r : SRaster) (cl : ℝ) :
    Scan.limit L key poi r cl = Scan.limit L key poi r (95/100) := rfl

/-- What the code does with 2 or 3 positive p-values: no limit is reported, whatever the values; with
fewer, `TypeError`. -/
theorem c54_few_points (L : SplineLib) (key poi : String) (r : SRaster)
    (pts : List (ℝ × ℝ)) (hp : PointsAre key poi 0 r pts)
    (hinc : ((positive pts).map Prod.fst).Pairwise (· < ·)) :
    (2 ≤ (positive pts).length → (positive pts).length < 4 → Scan.limit L key poi r = .ok none) ∧
    ((positive pts).length < 2 → Scan.limit L key poi r = .error .typeError) := by
  have e1 : ∀ lv : ℝ, (((pts.filter (fun p => 0 < p.2)).map (fun p => (p.1, Real.log (p.2 / lv)))).length) =
      (positive pts).length := by simp [positive]
  constructor
  · intro h2 h4
    simp only [Scan.limit, Scan.crossings, points_of key poi 0 r pts hp, bind_ok, Scan.limitCl,
      Scan.interpolateCrossings, Scan.interpPoints, if_true, zip_map_fst_snd]
    have hn1 : ¬ (positive pts).length < 2 := by omega
    have hn2 : (positive pts).length < 3 + 1 := by omega
    have hn3 : ¬ ((positive pts).length - 1 = 3) := by omega
    rw [e1, if_neg hn1, if_pos hn2]
    simp only [Scan.spline, List.map_map]
    have e2 : ∀ lv : ℝ, (pts.filter (fun p => decide (0 < p.2))).map (Prod.fst ∘ fun p => (p.1, Real.log (p.2 / lv))) =
      (positive pts).map Prod.fst := fun _ => rfl
    have e3 : ∀ lv : ℝ, (pts.filter (fun p => decide (0 < p.2))).map (Prod.snd ∘ fun p => (p.1, Real.log (p.2 / lv))) =
      (positive pts).map (fun p => Real.log (p.2 / lv)) := fun _ => rfl
    rw [e2, e3, if_pos ⟨hinc, by simp, by omega, by omega, by simp; omega⟩]
    simp [hn3, Scan.lenOf]
  · intro h2
    simp only [Scan.limit, Scan.crossings, points_of key poi 0 r pts hp, bind_ok, Scan.limitCl,
      Scan.interpolateCrossings, Scan.interpPoints, if_true, zip_map_fst_snd]
    rw [e1, if_pos h2]
    simp [Scan.lenOf]

/-- Points are not sorted: with at least 2 positive p-values whose POI values do not strictly
increase along the raster, `ValueError`. -/
theorem c54_unordered_refused (L : SplineLib) (key poi : String) (r : SRaster)
    (pts : List (ℝ × ℝ)) (hp : PointsAre key poi 0 r pts) (h2 : 2 ≤ (positive pts).length)
    (hinc : ¬ ((positive pts).map Prod.fst).Pairwise (· < ·)) :
    Scan.limit L key poi r = .error .valueError := by
  have e1 : ∀ lv : ℝ, (((pts.filter (fun p => 0 < p.2)).map (fun p => (p.1, Real.log (p.2 / lv)))).length) =
      (positive pts).length := by simp [positive]
  simp only [Scan.limit, Scan.crossings, points_of key poi 0 r pts hp, bind_ok, Scan.limitCl,
    Scan.interpolateCrossings, Scan.interpPoints, if_true, zip_map_fst_snd]
  have hn1 : ¬ (positive pts).length < 2 := by omega
  rw [e1, if_neg hn1]
  simp only [Scan.spline, List.map_map]
  have e2 : ∀ lv : ℝ, (pts.filter (fun p => decide (0 < p.2))).map (Prod.fst ∘ fun p => (p.1, Real.log (p.2 / lv))) =
    (positive pts).map Prod.fst := fun _ => rfl
  rw [e2, if_neg (fun h => hinc h.1)]
  rfl

theorem root_crossing (L : SplineLib) (hL : L.Correct) (pts : List (ℝ × ℝ)) (lv : ℝ) (hlv0 : 0 < lv)
    (hs : Scan.spline ((positive pts).map Prod.fst) ((positive pts).map (fun p => Real.log (p.2 / lv))) 3 =
        .ok ⟨(positive pts).map Prod.fst, (positive pts).map (fun p => Real.log (p.2 / lv)), 3⟩) (x : ℝ)
    (hx : x ∈ L.roots ⟨(positive pts).map Prod.fst, (positive pts).map (fun p => Real.log (p.2 / lv)), 3⟩) :
    Between pts x ∧ logCurve L pts lv x = lv := by
  obtain ⟨⟨⟨a, ha, h1⟩, ⟨b, hb, h2⟩⟩, g2⟩ := hL.roots_sound _ _ _ hs x hx
  obtain ⟨a', ha', rfl⟩ := List.mem_map.1 ha
  obtain ⟨b', hb', rfl⟩ := List.mem_map.1 hb
  refine ⟨⟨⟨a', (List.mem_filter.1 ha').1, h1⟩, ⟨b', (List.mem_filter.1 hb').1, h2⟩⟩, ?_⟩
  unfold logCurve
  rw [g2]; simp

/-- C54.  With errors, the three values reported are crossings of the curves through the central
p-values, the p-values shifted up, and the p-values shifted down by their error, in this order. -/
theorem c54_limit_with_errors (L : SplineLib) (hL : L.Correct) (key poi : String) (r : SRaster)
    (p0 pu pd : List (ℝ × ℝ)) (hp0 : PointsAre key poi 0 r p0) (hpu : PointsAre key poi 1 r pu)
    (hpd : PointsAre key poi (-1) r pd) (h4 : ∀ p ∈ [p0, pu, pd], 4 ≤ (positive p).length ∧
      ((positive p).map Prod.fst).Pairwise (· < ·)) (x xu xd : ℝ)
    (h : Scan.limitErr L key poi r = .ok (some (x, xu, xd))) :
    (Between p0 x ∧ logCurve L p0 (1 - 95/100) x = 1 - 95/100) ∧
    (Between pu xu ∧ logCurve L pu (1 - 95/100) xu = 1 - 95/100) ∧
    (Between pd xd ∧ logCurve L pd (1 - 95/100) xd = 1 - 95/100) := by
  set lv : ℝ := 1 - 95/100 with hlv
  have hlv0 : 0 < lv := by rw [hlv]; norm_num
  obtain ⟨s0, c0⟩ := crossings_log L p0 lv (h4 p0 (by simp)).1 (h4 p0 (by simp)).2
  obtain ⟨su, cu⟩ := crossings_log L pu lv (h4 pu (by simp)).1 (h4 pu (by simp)).2
  obtain ⟨sd, cd⟩ := crossings_log L pd lv (h4 pd (by simp)).1 (h4 pd (by simp)).2
  simp only [Scan.limitErr, Scan.crossingsErr, Scan.limitCl, points_of key poi 0 r p0 hp0,
    points_of key poi 1 r pu hpu, points_of key poi (-1) r pd hpd, bind_ok] at h
  rw [show (1 - 95/100 : ℝ) = lv from rfl, c0, cu, cd] at h
  simp only [bind_ok, Scan.lenOf] at h
  by_cases hu : (L.roots ⟨(positive pu).map Prod.fst, (positive pu).map (fun p => Real.log (p.2 / lv)), 3⟩).length ≠
    (L.roots ⟨(positive p0).map Prod.fst, (positive p0).map (fun p => Real.log (p.2 / lv)), 3⟩).length
  · rw [if_pos hu] at h; simp at h
  rw [if_neg hu] at h
  by_cases hd : (L.roots ⟨(positive pd).map Prod.fst, (positive pd).map (fun p => Real.log (p.2 / lv)), 3⟩).length ≠
    (L.roots ⟨(positive p0).map Prod.fst, (positive p0).map (fun p => Real.log (p.2 / lv)), 3⟩).length
  · rw [if_pos hd] at h; simp at h
  rw [if_neg hd] at h
  have k0 := root_crossing L hL p0 lv hlv0 s0
  have ku := root_crossing L hL pu lv hlv0 su
  have kd := root_crossing L hL pd lv hlv0 sd
  generalize L.roots ⟨(positive p0).map Prod.fst, _, 3⟩ = l0 at *
  generalize L.roots ⟨(positive pu).map Prod.fst, _, 3⟩ = lu at *
  generalize L.roots ⟨(positive pd).map Prod.fst, _, 3⟩ = ld at *
  cases l0 with
  | nil => simp at h
  | cons a l0 => cases lu with
    | nil => simp at hu
    | cons b lu => cases ld with
      | nil => simp at hd
      | cons c ld =>
        simp at h
        obtain ⟨rfl, rfl, rfl⟩ := h
        exact ⟨k0 _ (by simp), ku _ (by simp), kd _ (by simp)⟩

/-- The points of `demoScan`. -/
noncomputable def demoPts : List (ℝ × ℝ) := [(0, 1), (1, 1/2), (2, 1/10), (3, 1/100)]

theorem demoPts_ok : PointsAre "cls" "mu" 0 demoScan demoPts ∧ positive demoPts = demoPts ∧
    (demoPts.map Prod.fst).Pairwise (· < ·) := by
  refine ⟨?_, ?_, ?_⟩
  · simp [PointsAre, demoScan, demoPts, Scan.value, Dict.get?]
  · unfold positive
    refine List.filter_eq_self.2 ?_
    intro p hp
    simp only [demoPts, List.mem_cons, List.not_mem_nil, or_false] at hp
    rcases hp with rfl | rfl | rfl | rfl <;> simp
  · simp [demoPts]; norm_num

/-- All hypotheses of `c54_limit_found` are met by `demoScan` with Lagrange interpolation. -/
example : ∃ x, Scan.limit SplineEx.lib "cls" "mu" demoScan = .ok (some x) := by
  obtain ⟨h1, h2, h3⟩ := demoPts_ok
  refine c54_limit_found SplineEx.lib SplineEx.correct "cls" "mu" demoScan demoPts h1 (by rw [h2]; simp [demoPts])
    (by rw [h2]; exact h3) ?_ (0, 1) (3, 1/100) (by simp [demoPts]) (by simp [demoPts]) (by norm_num)
    (by norm_num) (by norm_num)
  set s : Spl := ⟨(positive demoPts).map Prod.fst,
    (positive demoPts).map (fun p => Real.log (p.2 / (1 - 95/100))), 3⟩ with hs
  have hc := (c54_limit_is_crossing SplineEx.lib SplineEx.correct "cls" "mu" demoScan demoPts h1
    (by rw [h2]; simp [demoPts]) (by rw [h2]; exact h3)).1 (0, 1) (by simp [demoPts]) (by norm_num)
  have hne : SplineEx.poly s ≠ 0 := by
    intro h0
    unfold logCurve at hc
    rw [← hs] at hc
    simp only [SplineEx.lib, h0] at hc
    norm_num at hc
  refine (SplineEx.zeros_finite s _ hne).subset ?_
  rintro y ⟨⟨⟨a, ha, ha'⟩, ⟨b, hb, hb'⟩⟩, hy⟩
  refine ⟨⟨⟨a.1, List.mem_map.2 ⟨a, ha, rfl⟩, ha'⟩, ⟨b.1, List.mem_map.2 ⟨b, hb, rfl⟩, hb'⟩⟩, ?_⟩
  unfold logCurve at hy
  rw [← hs] at hy
  have : Real.exp (SplineEx.lib.eval s y) = 1 := by
    have h20 : (1 - 95/100 : ℝ) ≠ 0 := by norm_num
    exact mul_left_cancel₀ h20 (by rw [hy]; ring)
  exact (Real.exp_eq_one_iff _).1 this

/-! ## C55: likelihood intervals -/

/-- The curve in which crossings are searched in linear scale. -/
noncomputable def linCurve (L : SplineLib) (pts : List (ℝ × ℝ)) (level : ℝ) (x : ℝ) : ℝ :=
  level + L.eval ⟨pts.map Prod.fst, pts.map (fun p => p.2 - level), 3⟩ x

theorem crossings_lin (L : SplineLib) (xs : List (ℝ × ℝ)) (level : ℝ) (h4 : 4 ≤ xs.length)
    (hinc : (xs.map Prod.fst).Pairwise (· < ·)) :
    Scan.spline (xs.map Prod.fst) (xs.map (fun p => p.2 - level)) 3 =
        .ok ⟨xs.map Prod.fst, xs.map (fun p => p.2 - level), 3⟩ ∧
    Scan.interpolateCrossings L (xs.map Prod.fst) (xs.map Prod.snd) level 3 false =
      .ok (some (L.roots ⟨xs.map Prod.fst, xs.map (fun p => p.2 - level), 3⟩)) := by
  have hs : Scan.spline (xs.map Prod.fst) (xs.map (fun p => p.2 - level)) 3 =
        .ok ⟨xs.map Prod.fst, xs.map (fun p => p.2 - level), 3⟩ := by
    simp only [Scan.spline]
    rw [if_pos ⟨hinc, by simp, by norm_num, by norm_num, by simp; omega⟩]
  refine ⟨hs, ?_⟩
  simp only [Scan.interpolateCrossings, Scan.interpPoints, zip_map_fst_snd]
  have hn1 : ¬ xs.length < 2 := by omega
  have hn2 : ¬ xs.length < 3 + 1 := by omega
  simp only [Bool.false_eq_true, if_false, List.length_map]
  rw [if_neg hn1, if_neg hn2]
  simp only [List.map_map]
  have e2 : xs.map (Prod.fst ∘ fun p => (p.1, p.2 - level)) = xs.map Prod.fst := rfl
  have e3 : xs.map (Prod.snd ∘ fun p => (p.1, p.2 - level)) = xs.map (fun p => p.2 - level) := rfl
  rw [e2, e3, hs]
  rfl

theorem errors_spec (m : ℝ) (cs : List ℝ) (Q : ℝ → Prop) (hQ : ∀ c ∈ cs, Q c) :
    (∀ e ∈ (Scan.errors m (Scan.ends cs).1 (Scan.ends cs).2).2.1, Q (m + e)) ∧
    (∀ e ∈ (Scan.errors m (Scan.ends cs).1 (Scan.ends cs).2).2.2, Q (m - e)) := by
  have key : ∀ lo hi : Option ℝ, (∀ c ∈ lo, Q c) → (∀ c ∈ hi, Q c) →
      (∀ e ∈ (Scan.errors m lo hi).2.1, Q (m + e)) ∧ (∀ e ∈ (Scan.errors m lo hi).2.2, Q (m - e)) := by
    intro lo hi h1 h2
    cases hi with
    | none => cases lo with
      | none => simp [Scan.errors]
      | some l =>
        have := h1 l (by simp)
        simp only [Scan.errors]
        split_ifs
        · simpa using this
        · simpa using this
    | some h => cases lo with
      | none =>
        have := h2 h (by simp)
        simp only [Scan.errors]; simpa using this
      | some l =>
        have := h2 h (by simp)
        have := h1 l (by simp)
        simp only [Scan.errors]
        refine ⟨by simpa, by simpa⟩
  refine key _ _ ?_ ?_
  · match cs with
    | [] => simp [Scan.ends]
    | [c] => simpa [Scan.ends] using hQ c (by simp)
    | c :: c' :: l => simpa [Scan.ends] using hQ c (by simp)
  · match cs with
    | [] => simp [Scan.ends]
    | [c] => simp [Scan.ends]
    | c :: c' :: l => simpa [Scan.ends] using hQ c' (by simp)

/-- C55.  With at least 4 points at increasing POI values, the curve goes through all the points; and
whatever central value is reported, adding the positive error to it, or subtracting the negative
error from it, gives a point within the scanned range where the curve is at the level. -/
theorem c55_interval_ends (L : SplineLib) (hL : L.Correct) (key poi : String) (r : SRaster) (level : ℝ)
    (pts : List (ℝ × ℝ)) (hp : PointsAre key poi 0 r pts) (h4 : 4 ≤ pts.length)
    (hinc : (pts.map Prod.fst).Pairwise (· < ·)) :
    (∀ p ∈ pts, linCurve L pts level p.1 = p.2) ∧ Continuous (linCurve L pts level) ∧
    ∀ m eh el, Scan.interval L key poi r level = .ok (m, eh, el) →
      (∀ e ∈ eh, Between pts (m + e) ∧ linCurve L pts level (m + e) = level) ∧
      (∀ e ∈ el, Between pts (m - e) ∧ linCurve L pts level (m - e) = level) := by
  obtain ⟨hs, hc⟩ := crossings_lin L pts level h4 hinc
  refine ⟨?_, ?_, ?_⟩
  · intro p hpm
    have hmem : (p.1, p.2 - level) ∈ (pts.map Prod.fst).zip (pts.map (fun p => p.2 - level)) := by
      rw [List.zip_map', List.mem_map]
      exact ⟨p, hpm, rfl⟩
    have := hL.interp _ _ _ _ hs _ hmem
    simp only at this
    unfold linCurve
    rw [this]; ring
  · exact continuous_const.add (hL.cont _ _ _ _ hs)
  · intro m eh el h
    simp only [Scan.interval, Scan.crossings, points_of key poi 0 r pts hp, bind_ok] at h
    rw [hc] at h
    simp only [bind_ok, Scan.lenOf] at h
    obtain ⟨ms, _, h1⟩ := bind_eq_ok.1 h
    obtain ⟨m', _, h2⟩ := bind_eq_ok.1 h1
    simp only [pure_ok, Except.ok.injEq] at h2
    have hmm : m' = m := by
      have := congrArg Prod.fst h2
      simpa [Scan.errors] using this
    subst hmm
    have := errors_spec m' (L.roots ⟨pts.map Prod.fst, pts.map (fun p => p.2 - level), 3⟩)
      (fun x => Between pts x ∧ linCurve L pts level x = level) (by
        intro c hcm
        obtain ⟨⟨⟨a, ha, h1⟩, ⟨b, hb, h2⟩⟩, g2⟩ := hL.roots_sound _ _ _ hs c hcm
        obtain ⟨a', ha', rfl⟩ := List.mem_map.1 ha
        obtain ⟨b', hb', rfl⟩ := List.mem_map.1 hb
        refine ⟨⟨⟨a', ha', h1⟩, ⟨b', hb', h2⟩⟩, ?_⟩
        unfold linCurve
        rw [g2]; ring)
    rw [h2] at this
    exact this

/-- C55.  With at least 5 points at increasing POI values where the quartic spline through them has a
stationary point, the central value is a stationary point of that spline within the scanned range,
and no other stationary point reported has a smaller value on the cubic spline. -/
theorem c55_central_value (L : SplineLib) (hL : L.Correct) (key poi : String) (r : SRaster) (level : ℝ)
    (pts : List (ℝ × ℝ)) (hp : PointsAre key poi 0 r pts) (h5 : 5 ≤ pts.length)
    (hinc : (pts.map Prod.fst).Pairwise (· < ·))
    (hst : L.stationary ⟨pts.map Prod.fst, pts.map Prod.snd, 4⟩ ≠ []) :
    ∃ m eh el, Scan.interval L key poi r level = .ok (m, eh, el) ∧ Between pts m ∧
      HasDerivAt (L.eval ⟨pts.map Prod.fst, pts.map Prod.snd, 4⟩) 0 m ∧
      ∀ m' ∈ L.stationary ⟨pts.map Prod.fst, pts.map Prod.snd, 4⟩,
        L.eval ⟨pts.map Prod.fst, pts.map Prod.snd, 3⟩ m ≤ L.eval ⟨pts.map Prod.fst, pts.map Prod.snd, 3⟩ m' := by
  obtain ⟨_, hc⟩ := crossings_lin L pts level (by omega) hinc
  have hs3 : Scan.spline (pts.map Prod.fst) (pts.map Prod.snd) 3 = .ok ⟨pts.map Prod.fst, pts.map Prod.snd, 3⟩ := by
    simp only [Scan.spline]
    rw [if_pos ⟨hinc, by simp, by norm_num, by norm_num, by simp; omega⟩]
  have hs4 : Scan.spline (pts.map Prod.fst) (pts.map Prod.snd) 4 = .ok ⟨pts.map Prod.fst, pts.map Prod.snd, 4⟩ := by
    simp only [Scan.spline]
    rw [if_pos ⟨hinc, by simp, by norm_num, by norm_num, by simp; omega⟩]
  have hmin : Scan.minima L key poi r (3 + 1) = .ok (L.stationary ⟨pts.map Prod.fst, pts.map Prod.snd, 4⟩) := by
    simp only [Scan.minima, points_of key poi 0 r pts hp, bind_ok, Scan.interpolateMinima, List.length_map]
    have hn1 : ¬ pts.length < 2 := by omega
    have hn2 : ¬ pts.length < 3 + 1 + 1 := by omega
    rw [if_neg hn1, if_neg hn2]
    simp only [show (3 + 1 = 4) from rfl, hs4, bind_ok, pure_ok, if_true]
    rw [if_pos (List.length_pos_iff.2 hst)]
  have hcv : ∃ m, Scan.centralValue L key poi r 3 (L.stationary ⟨pts.map Prod.fst, pts.map Prod.snd, 4⟩) = .ok m ∧
      m ∈ L.stationary ⟨pts.map Prod.fst, pts.map Prod.snd, 4⟩ ∧
      ∀ m' ∈ L.stationary ⟨pts.map Prod.fst, pts.map Prod.snd, 4⟩,
        L.eval ⟨pts.map Prod.fst, pts.map Prod.snd, 3⟩ m ≤ L.eval ⟨pts.map Prod.fst, pts.map Prod.snd, 3⟩ m' := by
    match hm : L.stationary ⟨pts.map Prod.fst, pts.map Prod.snd, 4⟩ with
    | [] => exact absurd hm hst
    | [m] => exact ⟨m, rfl, by simp, by simp⟩
    | m :: m1 :: ms =>
      simp only [Scan.centralValue, points_of key poi 0 r pts hp, bind_ok, hs3, pure_ok]
      set f := L.eval ⟨pts.map Prod.fst, pts.map Prod.snd, 3⟩
      obtain ⟨pre, post, g1, g2, g3⟩ := Scan.pyMin_spec (m, f m) ((m1 :: ms).map (fun x => (x, f x)))
      have hmem : ∀ q ∈ (m, f m) :: (m1 :: ms).map (fun x => (x, f x)), q.1 ∈ m :: m1 :: ms ∧ q.2 = f q.1 := by
        intro q hq
        rcases List.mem_cons.1 hq with rfl | hq
        · simp
        · obtain ⟨y, hy, rfl⟩ := List.mem_map.1 hq
          exact ⟨List.mem_cons_of_mem _ hy, rfl⟩
      have hbest := hmem (Scan.pyMin (m, f m) ((m1 :: ms).map (fun x => (x, f x)))) (by rw [g1]; simp)
      refine ⟨_, rfl, hbest.1, ?_⟩
      intro m' hm'
      have hin : (m', f m') ∈ (m, f m) :: (m1 :: ms).map (fun x => (x, f x)) := by
        rcases List.mem_cons.1 hm' with rfl | hm'
        · simp
        · exact List.mem_cons_of_mem _ (List.mem_map.2 ⟨m', hm', rfl⟩)
      rw [← hbest.2]
      rw [g1] at hin
      rcases List.mem_append.1 hin with hin | hin
      · exact (g2 _ hin).le
      · rcases List.mem_cons.1 hin with hin | hin
        · rw [← hin]
        · exact g3 _ hin
  obtain ⟨m, hm1, hm2, hm3⟩ := hcv
  refine ⟨m, (Scan.errors m (Scan.ends (L.roots ⟨pts.map Prod.fst, pts.map (fun p => p.2 - level), 3⟩)).1 (Scan.ends (L.roots ⟨pts.map Prod.fst, pts.map (fun p => p.2 - level), 3⟩)).2).2.1,
    (Scan.errors m (Scan.ends (L.roots ⟨pts.map Prod.fst, pts.map (fun p => p.2 - level), 3⟩)).1 (Scan.ends (L.roots ⟨pts.map Prod.fst, pts.map (fun p => p.2 - level), 3⟩)).2).2.2, ?_, ?_, ?_, hm3⟩
  · simp only [Scan.interval, Scan.crossings, points_of key poi 0 r pts hp, bind_ok, hc, Scan.lenOf, hmin,
      hm1, pure_ok]
    rfl
  · obtain ⟨⟨⟨a, ha, h1⟩, ⟨b, hb, h2⟩⟩, _⟩ := hL.stationary_sound _ _ _ hs4 m hm2
    obtain ⟨a', ha', rfl⟩ := List.mem_map.1 ha
    obtain ⟨b', hb', rfl⟩ := List.mem_map.1 hb
    exact ⟨⟨a', ha', h1⟩, ⟨b', hb', h2⟩⟩
  · exact (hL.stationary_sound _ _ _ hs4 m hm2).2

/-- A parabola at 5 points. -/
noncomputable def demoPLR : SRaster :=
  [([("mu", -2)], ⟨[], [("tmu", .num 4)]⟩), ([("mu", -1)], ⟨[], [("tmu", .num 1)]⟩),
   ([("mu", 0)], ⟨[], [("tmu", .num 0)]⟩), ([("mu", 1)], ⟨[], [("tmu", .num 1)]⟩),
   ([("mu", 2)], ⟨[], [("tmu", .num 4)]⟩)]

noncomputable def demoPLRPts : List (ℝ × ℝ) := [(-2, 4), (-1, 1), (0, 0), (1, 1), (2, 4)]

theorem demoPLR_ok : PointsAre "tmu" "mu" 0 demoPLR demoPLRPts ∧
    (demoPLRPts.map Prod.fst).Pairwise (· < ·) := by
  refine ⟨?_, ?_⟩
  · simp [PointsAre, demoPLR, demoPLRPts, Scan.value, Dict.get?, Dict.getItem]
  · simp [demoPLRPts]; norm_num

/-- All hypotheses of `c55_central_value` are met by `demoPLR` with Lagrange interpolation, and the
central value is 0. -/
example : ∃ eh el, Scan.interval SplineEx.lib "tmu" "mu" demoPLR 1 = .ok (0, eh, el) := by
  obtain ⟨h1, h2⟩ := demoPLR_ok
  set s : Spl := ⟨demoPLRPts.map Prod.fst, demoPLRPts.map Prod.snd, 4⟩ with hs
  have hp : SplineEx.poly s = Polynomial.X ^ 2 := by
    unfold SplineEx.poly
    refine (Lagrange.eq_interpolate_of_eval_eq _ (SplineEx.inj_nodes (xs := s.xs) h2) ?_ ?_).symm
    · rw [Polynomial.degree_X_pow]
      simp [hs, demoPLRPts]
      norm_num
    · intro i _
      have : ∀ i : Fin 5, (Polynomial.X ^ 2 : Polynomial ℝ).eval (([-2, -1, 0, 1, 2] : List ℝ)[i]) =
          (([4, 1, 0, 1, 4] : List ℝ)[(i : ℕ)]?.getD 0) := by
        intro i
        fin_cases i <;> norm_num
      exact this i
  have hd : Polynomial.derivative (SplineEx.poly s) = Polynomial.C 2 * Polynomial.X := by
    rw [hp, Polynomial.derivative_X_sq]
  have hf : {x | s.InRange x ∧ (Polynomial.derivative (SplineEx.poly s)).eval x = 0}.Finite := by
    refine SplineEx.zeros_finite s _ ?_
    rw [hd]
    intro h0
    have := congrArg (Polynomial.eval 1) h0
    simp at this
  have h0 : (0 : ℝ) ∈ SplineEx.lib.stationary s := by
    refine (SplineEx.mem_zeros s _ hf 0).2 ⟨⟨⟨-2, ?_, by norm_num⟩, ⟨2, ?_, by norm_num⟩⟩, ?_⟩
    · simp [hs, demoPLRPts]
    · simp [hs, demoPLRPts]
    · rw [hd]; simp
  obtain ⟨m, eh, el, e1, _, e3, _⟩ := c55_central_value SplineEx.lib SplineEx.correct "tmu" "mu" demoPLR 1
    demoPLRPts h1 (by simp [demoPLRPts]) h2 (List.ne_nil_of_mem h0)
  have hm : m = 0 := by
    have e4 := (SplineEx.poly s).hasDerivAt m
    have := e3.unique e4
    rw [hd] at this
    simpa using this.symm
  subst hm
  exact ⟨eh, el, e1⟩

/-- C55.  If the curve is at the level at exactly one point `c` of the scanned range, the interval has
exactly one end: the upper one if `c` is above the central value, otherwise the lower one. -/
theorem c55_single_crossing (L : SplineLib) (hL : L.Correct) (key poi : String) (r : SRaster) (level : ℝ)
    (pts : List (ℝ × ℝ)) (hp : PointsAre key poi 0 r pts) (h4 : 4 ≤ pts.length)
    (hinc : (pts.map Prod.fst).Pairwise (· < ·)) (c : ℝ)
    (hone : ∀ x, Between pts x ∧ linCurve L pts level x = level ↔ x = c)
    (m : ℝ) (eh el : Option ℝ) (h : Scan.interval L key poi r level = .ok (m, eh, el)) :
    (m < c → eh = some (c - m) ∧ el = none) ∧ (c ≤ m → eh = none ∧ el = some (m - c)) := by
  obtain ⟨hs, hc⟩ := crossings_lin L pts level h4 hinc
  set s : Spl := ⟨pts.map Prod.fst, pts.map (fun p => p.2 - level), 3⟩ with hsdef
  have hiff : ∀ x, s.InRange x ∧ L.eval s x = 0 ↔ x = c := by
    intro x
    rw [← hone x]
    have e1 : s.InRange x ↔ Between pts x := by
      simp [Spl.InRange, Between, hsdef]
    have e2 : L.eval s x = 0 ↔ linCurve L pts level x = level := by
      unfold linCurve
      rw [← hsdef]
      constructor <;> intro h <;> linarith
    rw [e1, e2]
  have hroots : L.roots s = [c] := by
    have hfin : {x | s.InRange x ∧ L.eval s x = 0}.Finite := by
      refine (Set.finite_singleton c).subset fun x hx => ?_
      exact (hiff x).1 hx
    have hmem : c ∈ L.roots s := hL.roots_complete _ _ _ hs hfin c ((hiff c).2 rfl).1 ((hiff c).2 rfl).2
    have hall : ∀ x ∈ L.roots s, x = c := fun x hx => (hiff x).1 (hL.roots_sound _ _ _ hs x hx)
    have hsort := hL.roots_sorted _ _ _ hs
    match hr : L.roots s with
    | [] => rw [hr] at hmem; cases hmem
    | [a] => rw [hall a (by rw [hr]; simp)]
    | a :: b :: l =>
      rw [hr] at hsort
      have h1 := hall a (by rw [hr]; simp)
      have h2 := hall b (by rw [hr]; simp)
      have := (List.pairwise_cons.1 hsort).1 b (by simp)
      rw [h1, h2] at this
      exact absurd this (lt_irrefl _)
  simp only [Scan.interval, Scan.crossings, points_of key poi 0 r pts hp, bind_ok] at h
  rw [hc] at h
  simp only [bind_ok, Scan.lenOf] at h
  obtain ⟨ms, _, h1⟩ := bind_eq_ok.1 h
  obtain ⟨m', _, h2⟩ := bind_eq_ok.1 h1
  simp only [pure_ok, Except.ok.injEq, hroots, Scan.ends] at h2
  by_cases hlt : c > m'
  · simp only [Scan.errors, if_pos hlt, Option.map_some, Option.map_none, Prod.mk.injEq] at h2
    obtain ⟨rfl, rfl, rfl⟩ := h2
    exact ⟨fun _ => ⟨rfl, rfl⟩, fun hle => absurd hle (not_le.2 hlt)⟩
  · simp only [Scan.errors, if_neg hlt, Option.map_some, Option.map_none, Prod.mk.injEq] at h2
    obtain ⟨rfl, rfl, rfl⟩ := h2
    exact ⟨fun hlt' => absurd hlt' hlt, fun _ => ⟨rfl, rfl⟩⟩

/-- A rising line at 4 points. -/
noncomputable def demoLine : SRaster :=
  [([("mu", 0)], ⟨[], [("tmu", .num 0)]⟩), ([("mu", 1)], ⟨[], [("tmu", .num 1)]⟩),
   ([("mu", 2)], ⟨[], [("tmu", .num 2)]⟩), ([("mu", 3)], ⟨[], [("tmu", .num 3)]⟩)]

noncomputable def demoLinePts : List (ℝ × ℝ) := [(0, 0), (1, 1), (2, 2), (3, 3)]

/-- The line meets the level 1 at the single point 1. -/
example (m : ℝ) (eh el : Option ℝ) (h : Scan.interval SplineEx.lib "tmu" "mu" demoLine 1 = .ok (m, eh, el)) :
    (m < 1 → eh = some (1 - m) ∧ el = none) ∧ (1 ≤ m → eh = none ∧ el = some (m - 1)) := by
  have h2 : (demoLinePts.map Prod.fst).Pairwise (· < ·) := by simp [demoLinePts]; norm_num
  refine c55_single_crossing SplineEx.lib SplineEx.correct "tmu" "mu" demoLine 1 demoLinePts ?_
    (by simp [demoLinePts]) h2 1 ?_ m eh el h
  · simp [PointsAre, demoLine, demoLinePts, Scan.value, Dict.get?, Dict.getItem]
  · set s : Spl := ⟨demoLinePts.map Prod.fst, demoLinePts.map (fun p => p.2 - 1), 3⟩ with hs
    have hp : SplineEx.poly s = Polynomial.X - Polynomial.C 1 := by
      unfold SplineEx.poly
      refine (Lagrange.eq_interpolate_of_eval_eq _ (SplineEx.inj_nodes (xs := s.xs) h2) ?_ ?_).symm
      · rw [Polynomial.degree_X_sub_C]
        simp [hs, demoLinePts]
      · intro i _
        have : ∀ i : Fin 4, (Polynomial.X - Polynomial.C 1 : Polynomial ℝ).eval (([0, 1, 2, 3] : List ℝ)[i]) =
            (([0 - 1, 1 - 1, 2 - 1, 3 - 1] : List ℝ)[(i : ℕ)]?.getD 0) := by
          intro i
          fin_cases i <;> norm_num
        exact this i
    intro x
    have e : linCurve SplineEx.lib demoLinePts 1 x = x := by
      unfold linCurve
      rw [← hs]
      simp [SplineEx.lib, hp]
    rw [e]
    refine ⟨fun h => h.2, fun h => ⟨?_, h⟩⟩
    subst h
    exact ⟨⟨(0, 0), by simp [demoLinePts], by norm_num⟩, ⟨(3, 3), by simp [demoLinePts], by norm_num⟩⟩

theorem argMin_sorted (x : ℝ) (xs : List ℝ) (h : (x :: xs).Pairwise (· < ·)) :
    Scan.argMinIdx (x :: xs) = .ok 0 := by
  have key : ∀ (l : List (ℕ × ℝ)), (∀ p ∈ l, x < p.2) → Scan.pyMin (0, x) l = (0, x) := by
    intro l
    induction l with
    | nil => intro _; rfl
    | cons a l ih =>
      intro hl
      simp only [Scan.pyMin]
      rw [if_neg (not_lt.2 (hl a (by simp)).le)]
      exact ih (fun p hp => hl p (by simp [hp]))
  simp only [Scan.argMinIdx]
  rw [key]
  intro p hp
  obtain ⟨q, hq, rfl⟩ := List.mem_map.1 hp
  exact (List.pairwise_cons.1 h).1 _ (List.fst_mem_of_mem_zipIdx hq)

/-- What the code does with 2 to 4 points: the "central value" reported is the *test statistic* of the
smallest hypothesis, not a POI value. -/
theorem c55_few_points (L : SplineLib) (key poi : String) (r : SRaster) (level : ℝ)
    (x y : ℝ) (pts : List (ℝ × ℝ)) (hp : PointsAre key poi 0 r ((x, y) :: pts)) (h1 : 1 ≤ pts.length)
    (h3 : pts.length ≤ 3) (hinc : (((x, y) :: pts).map Prod.fst).Pairwise (· < ·)) :
    ∃ eh el, Scan.interval L key poi r level = .ok (y, eh, el) := by
  have hpt := points_of key poi 0 r _ hp
  have hcr : ∃ cs, Scan.crossings L key poi r level 3 false = .ok (some cs) := by
    simp only [Scan.crossings, hpt, bind_ok, Scan.interpolateCrossings, Scan.interpPoints, zip_map_fst_snd]
    simp only [Bool.false_eq_true, if_false, List.length_map]
    have hn1 : ¬ ((x, y) :: pts).length < 2 := by simp only [List.length_cons]; omega
    rw [if_neg hn1]
    simp only [List.map_map]
    have e2 : ((x, y) :: pts).map (Prod.fst ∘ fun p => (p.1, p.2 - level)) = ((x, y) :: pts).map Prod.fst := rfl
    rw [e2]
    have : ∀ k, 1 ≤ k → k ≤ 3 → k < pts.length + 1 →
        Scan.spline (((x, y) :: pts).map Prod.fst) (((x, y) :: pts).map (Prod.snd ∘ fun p => (p.1, p.2 - level))) k =
        .ok ⟨((x, y) :: pts).map Prod.fst, ((x, y) :: pts).map (Prod.snd ∘ fun p => (p.1, p.2 - level)), k⟩ := by
      intro k k1 k2 k3
      simp only [Scan.spline]
      rw [if_pos ⟨hinc, by simp, k1, by omega, by simpa using k3⟩]
    rw [this]
    · exact ⟨_, rfl⟩
    · split_ifs <;> simp <;> omega
    · split_ifs <;> simp <;> omega
    · simp only [List.length_cons]; split_ifs <;> omega
  obtain ⟨cs, hcr⟩ := hcr
  have hmin : Scan.minima L key poi r (3 + 1) = .ok [y] := by
    simp only [Scan.minima, hpt, bind_ok, Scan.interpolateMinima, List.length_map]
    have hn1 : ¬ ((x, y) :: pts).length < 2 := by simp only [List.length_cons]; omega
    have hn2 : ((x, y) :: pts).length < 3 + 1 + 1 := by simp only [List.length_cons]; omega
    rw [if_neg hn1, if_pos hn2]
    have hs : Scan.spline (((x, y) :: pts).map Prod.fst) (((x, y) :: pts).map Prod.snd)
        (((x, y) :: pts).length - 1) = .ok ⟨((x, y) :: pts).map Prod.fst, ((x, y) :: pts).map Prod.snd,
          ((x, y) :: pts).length - 1⟩ := by
      simp only [Scan.spline]
      rw [if_pos ⟨hinc, by simp, by simp; omega, by simp; omega, by simp⟩]
    rw [hs]
    simp only [bind_ok, pure_ok]
    have hne : ¬ (((x, y) :: pts).length - 1 = 4) := by simp; omega
    simp only [if_neg hne, List.length_nil, gt_iff_lt, Nat.lt_irrefl, if_false]
    have ha : Scan.argMinIdx (((x, y) :: pts).map Prod.fst) = .ok 0 := argMin_sorted x (pts.map Prod.fst) (by simpa using hinc)
    rw [ha]
    simp
  refine ⟨(Scan.errors y (Scan.ends cs).1 (Scan.ends cs).2).2.1,
    (Scan.errors y (Scan.ends cs).1 (Scan.ends cs).2).2.2, ?_⟩
  · simp only [Scan.interval, hcr, bind_ok, Scan.lenOf, hmin, Scan.centralValue, pure_ok]
    rfl

/-- C55.  The level used for an interval at confidence level `cl` is the one at which the scan reports
the confidence level `cl`; for `n` standard deviations the confidence level is the probability of a
standard normal variable to be within `n` of 0. -/
theorem c55_levels_1d :
    (∀ cl ns, 0 ≤ cl → cl < 1 → ∃ l, Scan.tsLevel (some cl) ns = .ok l ∧ 0 ≤ l ∧ Scan.clOfLevel l = cl) ∧
    (∀ n, 0 ≤ n → ∃ l, Scan.tsLevel none (some n) = .ok l ∧ l = n ^ 2 ∧
      Scan.clOfLevel l = 1 - 2 * normSf n) := by
  constructor
  · intro cl ns h0 h1
    obtain ⟨g1, g2⟩ := Scan.chi2Isf_spec 1 (Or.inl rfl) (1 - cl) (by linarith) (by linarith)
    exact ⟨_, rfl, g1, by simp [Scan.clOfLevel, g2]⟩
  · intro n hn
    refine ⟨_, rfl, rfl, ?_⟩
    unfold Scan.clOfLevel
    rw [chi2Sf_one _ (by positivity), Real.sqrt_sq hn]

/-- C55.  The same for the contours in 2 dimensions: `n` standard deviations stand for the same
confidence level as in one dimension. -/
theorem c55_levels_2d :
    (∀ cl ns, 0 ≤ cl → cl < 1 → ∃ l, Scan.tsLevel2 (some cl) ns = .ok l ∧ 0 ≤ l ∧ Scan.clOfLevel2 l = cl ∧
      l = -2 * Real.log (1 - cl)) ∧
    (∀ n, 0 ≤ n → ∃ l, Scan.tsLevel2 none (some n) = .ok l ∧
      Scan.clOfLevel2 l = 1 - 2 * normSf n) := by
  constructor
  · intro cl ns h0 h1
    obtain ⟨g1, g2⟩ := Scan.chi2Isf_spec 2 (Or.inr rfl) (1 - cl) (by linarith) (by linarith)
    refine ⟨_, rfl, g1, by simp [Scan.clOfLevel2, g2], ?_⟩
    rw [Scan.chi2Sf_two _ g1] at g2
    have := congrArg Real.log g2
    rw [Real.log_exp] at this
    linarith
  · intro n hn
    have hle : 2 * normSf n ≤ 1 := by
      rw [show n = Real.sqrt (n ^ 2) from (Real.sqrt_sq hn).symm, ← chi2Sf_one _ (by positivity)]
      exact chi2Sf_le_one _ 1 (by norm_num)
    have hpos : 0 < 2 * normSf n := by
      rw [show n = Real.sqrt (n ^ 2) from (Real.sqrt_sq hn).symm, ← chi2Sf_one _ (by positivity)]
      exact chi2Sf_pos 1 (by norm_num) _
    obtain ⟨g1, g2⟩ := Scan.chi2Isf_spec 2 (Or.inr rfl) (1 - (1 - 2 * normSf n)) (by linarith) (by linarith)
    exact ⟨_, rfl, by simp only [Scan.clOfLevel2, g2]; ring⟩

end Verif.Props
