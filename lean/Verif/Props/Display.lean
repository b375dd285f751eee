import Verif.Model.Display
import Verif.Props.Sampling
import Verif.Props.FitData
import Verif.Lemmas.Expr
/-!
# C92: what is drawn and printed for a raster
-/
namespace Verif.Props
open Verif Verif.Display Verif.Spec

/-! ## The limit plots -/

theorem zip_fst_snd {α β : Type} (l : List (α × β)) : (l.map Prod.fst).zip (l.map Prod.snd) = l := by
  induction l with
  | nil => rfl
  | cons a t ih => simp [ih]

/-- C92: the curve of a limit plot goes through one point for each hypothesis of the raster, in the order of the raster:
the value of the POI and the stored value. -/
theorem c92_limit_curve (key poi : String) (r : SRaster) (we : Bool) (pl : CurvePlot)
    (h : plotLimit key poi r we = .ok pl) :
    List.Forall₂ (fun e q => e.1.getItem poi = .ok q.1 ∧ Scan.value key e.2 = .ok q.2) r pl.line := by
  unfold plotLimit at h
  obtain ⟨p0, h0, h⟩ := bind_eq_ok.1 h
  have hl : pl.line = p0.1.zip p0.2 := by
    cases we
    · rw [← Except.ok.inj (ε := PyErr) h]
    · obtain ⟨pu, _, h⟩ := bind_eq_ok.1 h
      obtain ⟨pd, _, h⟩ := bind_eq_ok.1 h
      rw [← Except.ok.inj (ε := PyErr) h]
  rw [hl]
  unfold Scan.points at h0
  obtain ⟨l, hl0, h0⟩ := bind_eq_ok.1 h0
  rw [← Except.ok.inj (ε := PyErr) h0]
  dsimp only
  rw [zip_fst_snd]
  refine (mapM_ok_iff.1 hl0).imp fun e q he => ?_
  unfold Scan.point at he
  obtain ⟨x, h1, he⟩ := bind_eq_ok.1 he
  obtain ⟨y, h2, he⟩ := bind_eq_ok.1 he
  cases Except.ok.inj (ε := PyErr) he
  exact ⟨h1, h2⟩

/-- The value `y` with its sampling error `err` is stored for the key. -/
def StoredWithError (key : String) (p : SPoint) (y err : ℝ) : Prop :=
  (p.pvs.get? key).or (p.test_statistics.get? key) = some (.pair y err)

theorem value_pair {key : String} {p : SPoint} {v w : ℝ} (hv : v ≠ 0) (h : Scan.value key p v = .ok w) :
    ∃ y err, StoredWithError key p y err ∧ w = y + v * err ∧ Scan.value key p = .ok y := by
  unfold Scan.value at h ⊢
  unfold StoredWithError
  cases hg : p.pvs.get? key with
  | some raw =>
    rw [hg] at h
    simp only [bind_ok] at h ⊢
    cases raw with
    | num x => dsimp only at h; rw [if_neg hv] at h; cases h
    | pair y err =>
      refine ⟨y, err, rfl, (Except.ok.inj (ε := PyErr) h).symm, ?_⟩
      dsimp only
      rw [zero_mul, add_zero]; rfl
  | none =>
    rw [hg] at h
    dsimp only at h ⊢
    obtain ⟨raw, h1, h⟩ := bind_eq_ok.1 h
    rw [h1, bind_ok]
    have hst : (none : Option SVal).or (p.test_statistics.get? key) = some raw := by
      simpa using Dict.getItem_ok.1 h1
    cases raw with
    | num x => dsimp only at h; rw [if_neg hv] at h; cases h
    | pair y err =>
      refine ⟨y, err, hst, (Except.ok.inj (ε := PyErr) h).symm, ?_⟩
      dsimp only
      rw [zero_mul, add_zero]; rfl

theorem band_list {key poi : String} : ∀ {r : SRaster} {l0 lu ld : List (ℝ × ℝ)},
    List.Forall₂ (fun e q => Scan.point key poi 0 e = .ok q) r l0 →
    List.Forall₂ (fun e q => Scan.point key poi 1 e = .ok q) r lu →
    List.Forall₂ (fun e q => Scan.point key poi (-1) e = .ok q) r ld →
    List.Forall₂ (fun e b => ∃ y err, e.1.getItem poi = .ok b.1 ∧ StoredWithError key e.2 y err ∧ b.2 = (err, err)) r
      ((l0.map Prod.fst).zip ((List.zipWith (fun up nom => up - nom) (lu.map Prod.snd) (l0.map Prod.snd)).zip
      (List.zipWith (fun nom dn => nom - dn) (l0.map Prod.snd) (ld.map Prod.snd)))) := by
  intro r
  induction r with
  | nil =>
    intro l0 lu ld h0 hu hd
    cases h0; cases hu; cases hd
    exact List.Forall₂.nil
  | cons e r ih =>
    intro l0 lu ld h0 hu hd
    cases h0 with
    | cons a0 h0 =>
      cases hu with
      | cons au hu =>
        cases hd with
        | cons ad hd =>
          simp only [List.map_cons, List.zipWith_cons_cons, List.zip_cons_cons]
          refine List.Forall₂.cons ?_ (ih h0 hu hd)
          unfold Scan.point at a0 au ad
          obtain ⟨x, x1, a0⟩ := bind_eq_ok.1 a0
          obtain ⟨y, y1, a0⟩ := bind_eq_ok.1 a0
          cases Except.ok.inj (ε := PyErr) a0
          obtain ⟨x', x2, au⟩ := bind_eq_ok.1 au
          obtain ⟨yu, yu1, au⟩ := bind_eq_ok.1 au
          cases Except.ok.inj (ε := PyErr) au
          obtain ⟨x'', x3, ad⟩ := bind_eq_ok.1 ad
          obtain ⟨yd, yd1, ad⟩ := bind_eq_ok.1 ad
          cases Except.ok.inj (ε := PyErr) ad
          obtain ⟨y', err, s1, e1, v1⟩ := value_pair one_ne_zero yu1
          obtain ⟨y'', err', s2, e2, v2⟩ := value_pair (by norm_num) yd1
          unfold StoredWithError at s1 s2
          rw [s1] at s2
          cases SVal.pair.inj (Option.some.inj s2) |>.1
          cases SVal.pair.inj (Option.some.inj s2) |>.2
          rw [y1] at v1
          cases Except.ok.inj (ε := PyErr) v1
          refine ⟨_, err, x1, s1, ?_⟩
          dsimp only
          rw [e1, e2]
          congr 1 <;> ring

/-- C92, a finding: the band drawn around the sampling results is not the band of ± one error around the curve: both of
its edges are at the height of the error itself, so that its area is empty. -/
theorem c92_error_band (key poi : String) (r : SRaster) (pl : CurvePlot) (h : plotLimit key poi r true = .ok pl) :
    ∃ band, pl.band = some band ∧ List.Forall₂ (fun e b => ∃ y err, e.1.getItem poi = .ok b.1 ∧
      StoredWithError key e.2 y err ∧ b.2 = (err, err)) r band := by
  unfold plotLimit at h
  obtain ⟨p0, h0, h⟩ := bind_eq_ok.1 h
  rw [if_pos rfl] at h
  obtain ⟨pu, hu, h⟩ := bind_eq_ok.1 h
  obtain ⟨pd, hd, h⟩ := bind_eq_ok.1 h
  rw [← Except.ok.inj (ε := PyErr) h]
  refine ⟨_, rfl, ?_⟩
  unfold Scan.points at h0 hu hd
  obtain ⟨l0, k0, h0⟩ := bind_eq_ok.1 h0
  obtain ⟨lu, ku, hu⟩ := bind_eq_ok.1 hu
  obtain ⟨ld, kd, hd⟩ := bind_eq_ok.1 hd
  rw [← Except.ok.inj (ε := PyErr) h0, ← Except.ok.inj (ε := PyErr) hu, ← Except.ok.inj (ε := PyErr) hd]
  exact band_list (mapM_ok_iff.1 k0) (mapM_ok_iff.1 ku) (mapM_ok_iff.1 kd)

/-- Without errors there is no band, and values stored without an error cannot be drawn with one. -/
theorem c92_no_error (key poi : String) (r : SRaster) :
    (∀ pl, plotLimit key poi r false = .ok pl → pl.band = none) ∧
    (∀ e ∈ r, ∀ y, (e.2.pvs.get? key).or (e.2.test_statistics.get? key) = some (.num y) →
      ∀ pl, plotLimit key poi r true ≠ .ok pl) := by
  refine ⟨fun pl h => ?_, fun e he y hy pl h => ?_⟩
  · unfold plotLimit at h
    obtain ⟨p0, h0, h⟩ := bind_eq_ok.1 h
    rw [← Except.ok.inj (ε := PyErr) h]
  · obtain ⟨band, _, hb⟩ := c92_error_band key poi r pl h
    obtain ⟨i, hi, rfl⟩ := List.getElem_of_mem he
    obtain ⟨y', err, _, h2, _⟩ := List.Forall₂.get hb hi (by rw [← hb.length_eq]; exact hi)
    unfold StoredWithError at h2
    rw [List.get_eq_getElem] at h2
    rw [hy] at h2
    cases h2

example : ∃ pl, plotLimit "sampling_cls" "mu" [([("mu", 1)], ⟨[("sampling_cls", .pair (1/2) (1/100))], []⟩),
    ([("mu", 2)], ⟨[("sampling_cls", .pair (1/10) (1/50))], []⟩)] true = .ok pl ∧
    pl.line = [(1, 1/2), (2, 1/10)] ∧ pl.band = some [(1, 1/100, 1/100), (2, 1/50, 1/50)] := by
  refine ⟨⟨[(1, 1/2), (2, 1/10)], some [(1, 1/100, 1/100), (2, 1/50, 1/50)]⟩, ?_, rfl, rfl⟩
  norm_num [plotLimit, Scan.points, Scan.point, Scan.value, Dict.getItem, Dict.get?]

/-! ## The expected bands -/

/-- The area covers the height `y` at the hypothesis number `j`. -/
def LayerCovers (l : Layer) (j : ℕ) (y : ℝ) : Prop :=
  ∃ a b, l.edge1[j]? = some a ∧ l.edge2[j]? = some b ∧ min a b ≤ y ∧ y ≤ max a b

/-- What is seen at a point is the colour of the last area drawn over it. -/
def Seen (layers : List Layer) (j : ℕ) (y : ℝ) (c : String) : Prop :=
  ∃ pre l post, layers = pre ++ l :: post ∧ LayerCovers l j y ∧ (∀ l' ∈ post, ¬ LayerCovers l' j y) ∧ l.color = c

theorem seen_cons (L : Layer) (ls : List Layer) (j : ℕ) (y : ℝ) (c : String) :
    Seen (L :: ls) j y c ↔ Seen ls j y c ∨ (LayerCovers L j y ∧ (∀ l ∈ ls, ¬ LayerCovers l j y) ∧ L.color = c) := by
  constructor
  · rintro ⟨pre, l, post, h, h1, h2, h3⟩
    cases pre with
    | nil =>
      rw [List.nil_append] at h
      cases h
      exact Or.inr ⟨h1, h2, h3⟩
    | cons a pre =>
      rw [List.cons_append] at h
      obtain ⟨_, h⟩ := List.cons.inj h
      exact Or.inl ⟨pre, l, post, h, h1, h2, h3⟩
  · rintro (⟨pre, l, post, h, h1⟩ | h)
    · exact ⟨L :: pre, l, post, by rw [h]; rfl, h1⟩
    · exact ⟨[], L, ls, rfl, h⟩

theorem range_rev_succ (m : ℕ) : ((List.range (m + 1)).map (· + 1)).reverse =
    (m + 1) :: ((List.range m).map (· + 1)).reverse := by
  rw [List.range_succ, List.map_append, List.reverse_append]; rfl

theorem seen_layers (L : ℕ → Layer) (j : ℕ) (y : ℝ) (c : String) : ∀ m : ℕ,
    Seen (((List.range m).map (· + 1)).reverse.map L) j y c ↔
      ∃ k, 1 ≤ k ∧ k ≤ m ∧ (L k).color = c ∧ LayerCovers (L k) j y ∧ ∀ k', 1 ≤ k' → k' < k → ¬ LayerCovers (L k') j y := by
  intro m
  induction m with
  | zero =>
    constructor
    · rintro ⟨pre, l, post, h, _⟩
      simp at h
    · rintro ⟨k, h1, h2, _⟩
      omega
  | succ m ih =>
    rw [range_rev_succ, List.map_cons, seen_cons, ih]
    constructor
    · rintro (⟨k, h1, h2, h3⟩ | ⟨h1, h2, h3⟩)
      · exact ⟨k, h1, by omega, h3⟩
      · refine ⟨m + 1, by omega, le_refl _, h3, h1, fun k' g1 g2 => h2 _ (List.mem_map.2 ⟨k', ?_, rfl⟩)⟩
        simp only [List.mem_reverse, List.mem_map, List.mem_range]
        exact ⟨k' - 1, by omega, by omega⟩
    · rintro ⟨k, h1, h2, h3, h4, h5⟩
      rcases Nat.lt_or_ge m k with hk | hk
      · have : k = m + 1 := by omega
        subst this
        refine Or.inr ⟨h4, fun l hl => ?_, h3⟩
        obtain ⟨k', hk', rfl⟩ := List.mem_map.1 hl
        simp only [List.mem_reverse, List.mem_map, List.mem_range] at hk'
        obtain ⟨a, ha, rfl⟩ := hk'
        exact h5 _ (by omega) (by omega)
      · exact Or.inl ⟨k, h1, hk, h3, h4, h5⟩

/-- C92: with bands that are ordered, the colour seen at a height is that of the narrowest band that contains it, and the
line drawn is the band of order 0; `q i hypo` is the band of order `i` at a hypothesis. -/
theorem c92_bands (hypos : List Hypo) (hne : ∀ a ∈ hypos, a ≠ []) (q : ℤ → Hypo → ℝ) (hq : ∀ i j, ∀ a ∈ hypos, i ≤ j → q i a ≤ q j a)
    (bds : List (ℤ × List ℝ)) (ms : ℕ) (hms : ms ≤ 4)
    (hb : ∀ i : ℤ, -ms ≤ i → i ≤ ms → ∃ b ∈ bds, b.1 = i) (hbv : ∀ b ∈ bds, b.2 = hypos.map (q b.1)) :
    ∃ B, plotBands hypos bds ms = .ok B ∧ B.median = hypos.map (q 0) ∧
      List.Forall₂ (fun a x => (a.head?).map Prod.snd = some x) hypos B.xs ∧
      ∀ j a, hypos[j]? = some a → ∀ y c, Seen B.layers j y c ↔
        ∃ k : ℕ, 1 ≤ k ∧ k ≤ ms ∧ colors[k]? = some c ∧ (q (-k) a ≤ y ∧ y ≤ q k a) ∧
          ∀ k' : ℕ, 1 ≤ k' → k' < k → ¬ (q (-k') a ≤ y ∧ y ≤ q k' a) := by
  have hget : ∀ i : ℤ, -ms ≤ i → i ≤ ms → getBand bds i = .ok (hypos.map (q i)) := by
    intro i h1 h2
    obtain ⟨b, hb1, hb2⟩ := hb i h1 h2
    rcases hf : bds.find? (fun b => b.1 = i) with _ | b'
    · have := List.find?_eq_none.1 hf b hb1
      simp [hb2] at this
    · have h3 := List.find?_some hf
      have h4 := hbv b' (List.mem_of_find?_eq_some hf)
      simp only [decide_eq_true_eq] at h3
      simp only [getBand, hf]
      rw [h4, h3]
  have hxs : ∃ xs, hypos.mapM firstValue = .ok xs ∧
      List.Forall₂ (fun a x => (a.head?).map Prod.snd = some x) hypos xs := by
    clear hget hb hbv hq
    induction hypos with
    | nil => exact ⟨[], rfl, List.Forall₂.nil⟩
    | cons a t ih =>
      obtain ⟨xs, h1, h2⟩ := ih fun b hb => hne b (List.mem_cons_of_mem _ hb)
      cases a with
      | nil => exact absurd rfl (hne [] List.mem_cons_self)
      | cons kv rest =>
        refine ⟨kv.2 :: xs, ?_, List.Forall₂.cons rfl h2⟩
        rw [List.mapM_cons, h1]
        rfl
  obtain ⟨xs, hx1, hx2⟩ := hxs
  set L : ℕ → Layer := fun k => ⟨hypos.map (q k), hypos.map (q (-k)), colors.getD k ""⟩ with hL
  have hlay : ((List.range ms).map (· + 1)).reverse.mapM (bandLayer bds) =
      .ok (((List.range ms).map (· + 1)).reverse.map L) := by
    refine mapM_ok_iff.2 (List.forall₂_map_right_iff.2 (List.forall₂_same.2 fun k hk => ?_))
    simp only [List.mem_reverse, List.mem_map, List.mem_range] at hk
    obtain ⟨a, ha, rfl⟩ := hk
    have hc : ∃ c, colors[a + 1]? = some c := ⟨colors[a + 1]'(by simp [colors]; omega), List.getElem?_eq_getElem _⟩
    obtain ⟨c, hc⟩ := hc
    unfold bandLayer
    rw [hget _ (by push_cast; omega) (by push_cast; omega), bind_ok, hget _ (by push_cast; omega) (by push_cast; omega),
      bind_ok, hc]
    simp only [hL, List.getD_eq_getElem?_getD, hc]
    rfl
  refine ⟨⟨xs, ((List.range ms).map (· + 1)).reverse.map L, hypos.map (q 0)⟩, ?_, rfl, hx2, ?_⟩
  · unfold plotBands
    rw [hx1, bind_ok, hlay, bind_ok, hget 0 (by omega) (by omega)]
    rfl
  · intro j a hj y c
    dsimp only
    rw [seen_layers]
    have hcov : ∀ k : ℕ, LayerCovers (L k) j y ↔ (q (-k) a ≤ y ∧ y ≤ q k a) := by
      intro k
      have hle := hq (-k) k a (List.mem_of_getElem? hj) (by omega)
      unfold LayerCovers
      simp only [hL, List.getElem?_map, hj, Option.map_some, Option.some.injEq]
      constructor
      · rintro ⟨_, _, rfl, rfl, h1, h2⟩
        rw [min_eq_right hle] at h1
        rw [max_eq_left hle] at h2
        exact ⟨h1, h2⟩
      · rintro ⟨h1, h2⟩
        exact ⟨_, _, rfl, rfl, by rwa [min_eq_right hle], by rwa [max_eq_left hle]⟩
    simp only [hcov]
    refine exists_congr fun k => ?_
    constructor
    · rintro ⟨h1, h2, h3, h4⟩
      refine ⟨h1, h2, ?_, h4⟩
      have hlt : k < colors.length := by simp [colors]; omega
      rw [List.getElem?_eq_getElem hlt, ← h3]
      simp only [hL, List.getD_eq_getElem?_getD, List.getElem?_eq_getElem hlt, Option.getD_some]
    · rintro ⟨h1, h2, h3, h4⟩
      refine ⟨h1, h2, ?_, h4⟩
      simp only [hL, List.getD_eq_getElem?_getD, h3, Option.getD_some]

/-- C92, a finding: there are four colours, so that five bands or more cannot be drawn. -/
theorem c92_bands_many (hypos : List Hypo) (hne : ∀ a ∈ hypos, a ≠ []) (bds : List (ℤ × List ℝ)) (ms : ℕ) (hms : 5 ≤ ms)
    (hb : ∀ i : ℤ, -ms ≤ i → i ≤ ms → ∃ b ∈ bds, b.1 = i) : plotBands hypos bds ms = .error .indexError := by
  have hget : ∀ i : ℤ, -ms ≤ i → i ≤ ms → ∃ l, getBand bds i = .ok l := by
    intro i h1 h2
    obtain ⟨b, hb1, hb2⟩ := hb i h1 h2
    rcases hf : bds.find? (fun b => b.1 = i) with _ | b'
    · have := List.find?_eq_none.1 hf b hb1
      simp [hb2] at this
    · exact ⟨b'.2, by simp [getBand, hf]⟩
  have hxs : ∃ xs, hypos.mapM firstValue = .ok xs := by
    clear hget hb
    induction hypos with
    | nil => exact ⟨[], rfl⟩
    | cons a t ih =>
      obtain ⟨xs, h1⟩ := ih fun b hb => hne b (List.mem_cons_of_mem _ hb)
      cases a with
      | nil => exact absurd rfl (hne [] List.mem_cons_self)
      | cons kv rest => exact ⟨kv.2 :: xs, by rw [List.mapM_cons, h1]; rfl⟩
  obtain ⟨xs, hxs⟩ := hxs
  unfold plotBands
  rw [hxs, bind_ok]
  obtain ⟨m, rfl⟩ : ∃ m, ms = m + 1 := ⟨ms - 1, by omega⟩
  obtain ⟨l1, h1⟩ := hget ((m + 1 : ℕ) : ℤ) (by omega) (by omega)
  obtain ⟨l2, h2⟩ := hget (-((m + 1 : ℕ) : ℤ)) (by omega) (by omega)
  have hL : bandLayer bds (m + 1) = .error .indexError := by
    unfold bandLayer
    rw [h1, bind_ok, h2, bind_ok, List.getElem?_eq_none (by simp [colors]; omega)]
    rfl
  rw [range_rev_succ, List.mapM_cons, hL]
  rfl

/-- `y` is in the central band of `k` standard deviations at the hypothesis `a`. -/
def InBand (h : List String → ℕ) (s : Samples) (a : Hypo) (k : ℕ) (y : ℝ) : Prop :=
  ∃ lo hi, s.quantile normCdf h a none (some (-k)) = .ok lo ∧ s.quantile normCdf h a none (some k) = .ok hi ∧ lo ≤ y ∧ y ≤ hi

/-- C92: the bands of toys are drawn with the colours of the narrowest bands: black is not used, green is the band of one
standard deviation, and so on; outside all bands there is no colour. -/
theorem c92_bands_toys (h : List String → ℕ) (s : Samples)
    (hd : ∀ hypo ∈ s.hypos, ∃ l n, l ≠ [] ∧ s.dists.getItem h hypo = .ok (SampDist.init n (some l)))
    (hne : ∀ a ∈ s.hypos, a ≠ []) (ms : ℕ) (hms : ms ≤ 4) :
    ∃ bds B, s.bands normCdf h ms = .ok bds ∧ plotBands s.hypos bds ms = .ok B ∧
      ∀ j a, s.hypos[j]? = some a → ∀ y c, Seen B.layers j y c ↔
        ∃ k : ℕ, 1 ≤ k ∧ k ≤ ms ∧ colors[k]? = some c ∧ InBand h s a k y ∧
          ∀ k' : ℕ, 1 ≤ k' → k' < k → ¬ InBand h s a k' y := by
  obtain ⟨bds, h1, h2, h3, h4, _⟩ := c48_all_orders h s hd ms
  set q : ℤ → Hypo → ℝ := fun i a => match s.quantile normCdf h a none (some (i : ℝ)) with
    | .ok x => x
    | .error _ => 0 with hqd
  have hok : ∀ (i : ℤ), ∀ a ∈ s.hypos, s.quantile normCdf h a none (some (i : ℝ)) = .ok (q i a) := by
    intro i a ha
    obtain ⟨b, hb1, hb2⟩ := Samples.band_ok h s i (fun hypo hh => by
      obtain ⟨l, n, hl, hg⟩ := hd hypo hh
      exact ⟨l, hl, (HDict.getItem_ok h _ _ _).1 hg⟩)
    unfold Samples.band at hb1
    obtain ⟨x, hx⟩ := mapM_ok_mem hb1 a ha
    simp only [hqd]
    have hx' : s.quantile normCdf h a none (some (i : ℝ)) = .ok x := hx
    rw [hx']
  obtain ⟨B, g1, g2, g3, g4⟩ := c92_bands s.hypos hne q (by
      intro i j a ha hij
      obtain ⟨l, n, hl, hg⟩ := hd a ha
      have e1 := hok i a ha
      have e2 := hok j a ha
      unfold Samples.quantile at e1 e2
      rw [hg, bind_ok] at e1 e2
      exact Samples.quantile_mono l i j hij _ _ e1 e2) bds ms hms
    (by
      intro i i1 i2
      have hk : (i + ms).toNat < bds.length := by omega
      refine ⟨bds[(i + ms).toNat], List.getElem_mem hk, ?_⟩
      rw [h3 _ hk]; omega)
    (by
      intro b hb
      have := h4 b hb
      refine List.forall₂_eq_eq_eq ▸ ?_
      refine List.forall₂_map_right_iff.2 ?_
      have hmem : ∀ a ∈ s.hypos, s.quantile normCdf h a none (some (b.1 : ℝ)) = .ok (q b.1 a) := hok b.1
      clear_value q
      revert hmem
      generalize b.2 = bl at this ⊢
      generalize s.hypos = hs at this ⊢
      intro hmem
      refine List.Forall₂.flip ?_
      induction this with
      | nil => exact List.Forall₂.nil
      | cons hr _ ih =>
        refine List.Forall₂.cons ?_ (ih fun a ha => hmem a (List.mem_cons_of_mem _ ha))
        have := hmem _ List.mem_cons_self
        rw [hr] at this
        exact (Except.ok.inj (ε := PyErr) this))
  refine ⟨bds, B, h1, g1, fun j a hj y c => ?_⟩
  have ha := List.mem_of_getElem? hj
  have hin : ∀ k : ℕ, InBand h s a k y ↔ (q (-k) a ≤ y ∧ y ≤ q k a) := by
    intro k
    have e1 := hok (-k) a ha
    have e2 := hok k a ha
    push_cast at e1 e2
    unfold InBand
    rw [e1, e2]
    constructor
    · rintro ⟨lo, hi, k1, k2, k3⟩
      rw [Except.ok.inj (ε := PyErr) k1, Except.ok.inj (ε := PyErr) k2]
      exact k3
    · intro k3
      exact ⟨_, _, rfl, rfl, k3⟩
  rw [g4 j a hj y c]
  simp only [hin]

/-- Between the bands of one and two standard deviations the second colour is seen. -/
example (h : List String → ℕ) (s : Samples)
    (hd : ∀ hypo ∈ s.hypos, ∃ l n, l ≠ [] ∧ s.dists.getItem h hypo = .ok (SampDist.init n (some l)))
    (hne : ∀ a ∈ s.hypos, a ≠ []) (a : Hypo) (j : ℕ) (hj : s.hypos[j]? = some a) (y : ℝ)
    (h1 : ¬ InBand h s a 1 y) (h2 : InBand h s a 2 y) :
    ∃ bds B, s.bands normCdf h 2 = .ok bds ∧ plotBands s.hypos bds 2 = .ok B ∧ Seen B.layers j y "y" := by
  obtain ⟨bds, B, g1, g2, g3⟩ := c92_bands_toys h s hd hne 2 (by norm_num)
  refine ⟨bds, B, g1, g2, (g3 j a hj y "y").2 ⟨2, by norm_num, le_refl _, rfl, h2, fun k' k1 k2 => ?_⟩⟩
  obtain rfl : k' = 1 := by omega
  exact h1

example : plotBands [[("mu", 1)]] ((List.range 11).map fun k : ℕ => ((k : ℤ) - 5, [(k : ℝ)])) 5 = .error .indexError :=
  c92_bands_many _ (by simp) _ 5 (le_refl _) fun i h1 h2 => ⟨_, List.mem_map.2 ⟨(i + 5).toNat, by
    rw [List.mem_range]; omega, rfl⟩, by dsimp only; omega⟩

/-! ## The printed table -/

theorem row_cells {h : List String → ℕ} {pois : List String} {r : Raster} {other : Option (List String × Raster)}
    {hypo : Hypo} {cols : List Col} {row : List ℝ} (hmem : ∀ c ∈ cols, c.other = true → other.isSome = true)
    (hx : List.Forall₂ (fun c v => cell h pois r other hypo c = .ok v) cols row) :
    List.Forall₂ (fun c v => if c.other then ∃ o, other = some o ∧ Raster.keyValue h o.1 o.2 c.key hypo = .ok (some v)
      else Raster.keyValue h pois r c.key hypo = .ok (some v)) cols row := by
  induction hx with
  | nil => exact List.Forall₂.nil
  | @cons c v cs vs hcv _ ih =>
    refine List.Forall₂.cons ?_ (ih fun c hc' => hmem c (List.mem_cons_of_mem _ hc'))
    unfold cell at hcv
    obtain ⟨w, h1, h2⟩ := bind_eq_ok.1 hcv
    cases w with
    | none => cases h2
    | some w =>
      cases Except.ok.inj (ε := PyErr) h2
      unfold cellValue at h1
      cases ho : c.other
      · rw [ho] at h1
        simpa using h1
      · obtain ⟨o, hoo⟩ := Option.isSome_iff_exists.1 (hmem c List.mem_cons_self ho)
        rw [ho, hoo] at h1
        rw [if_pos rfl]
        exact ⟨o, hoo, h1⟩

/-- C92: the printed table has one row for each hypothesis, in which each cell is the value that belongs to the key at the
head of its column, taken from this raster or, in the second column of a key, from the other one; the POIs and the keys
asked for have columns, and POIs have only one. -/
theorem c92_table (h : List String → ℕ) (pois : List String) (r : Raster) (keys : Option (List String)) (verbosity : ℤ)
    (other : Option (List String × Raster)) (cols : List Col) (rows : List (List ℝ))
    (hp : print h pois r keys verbosity other = .ok (some (cols, rows))) :
    List.Forall₂ (fun x row => List.Forall₂ (fun c v =>
        (if c.other then ∃ o, other = some o ∧ Raster.keyValue h o.1 o.2 c.key x.1 = .ok (some v)
         else Raster.keyValue h pois r c.key x.1 = .ok (some v))) cols row) r rows ∧
    (∀ c ∈ cols, c.other = true → other.isSome ∧ c.key ∉ pois ∧ ⟨c.key, false⟩ ∈ cols) ∧
    (1 ≤ verbosity → ∀ p ∈ pois, ⟨p, false⟩ ∈ cols) ∧
    (∀ l, keys = some l → ∀ k ∈ l, ⟨k, false⟩ ∈ cols) := by
  cases r with
  | nil => cases hp
  | cons e r' =>
    unfold print at hp
    dsimp only at hp
    obtain ⟨rows', hr, hp⟩ := bind_eq_ok.1 hp
    obtain ⟨hc, hrows⟩ := Prod.mk.inj (Option.some.inj (Except.ok.inj (ε := PyErr) hp))
    subst hrows
    rw [hc] at hr
    have hcm : ∀ c, c ∈ cols ↔ (c.other = false ∧ c.key ∈ tableKeys pois keys verbosity e.2.data.pvs) ∨
        (c.other = true ∧ c.key ∈ tableKeys pois keys verbosity e.2.data.pvs ∧ other.isSome ∧ c.key ∉ pois) := by
      intro c
      rw [← hc]
      unfold tableCols
      simp only [List.mem_flatMap, List.mem_cons]
      constructor
      · rintro ⟨k, hk, rfl | hk2⟩
        · exact Or.inl ⟨rfl, hk⟩
        · split at hk2
          · rename_i hh
            rw [List.mem_singleton] at hk2
            subst hk2
            exact Or.inr ⟨rfl, hk, hh.1, hh.2⟩
          · cases hk2
      · obtain ⟨key, o⟩ := c
        rintro (⟨h1, h2⟩ | ⟨h1, h2, h3, h4⟩)
        · dsimp only at h1 h2
          subst h1
          exact ⟨key, h2, Or.inl rfl⟩
        · dsimp only at h1 h2 h4
          subst h1
          refine ⟨key, h2, Or.inr ?_⟩
          rw [if_pos ⟨h3, h4⟩]
          exact List.mem_singleton.2 rfl
    refine ⟨(mapM_ok_iff.1 hr).imp fun x row hx => ?_, ?_, ?_, ?_⟩
    · refine row_cells (fun c hc' ho => ?_) (mapM_ok_iff.1 hx)
      rcases (hcm c).1 hc' with ⟨h1, _⟩ | ⟨_, _, h2, _⟩
      · rw [ho] at h1; cases h1
      · exact h2
    · intro c hc' ho
      rcases (hcm c).1 hc' with ⟨h1, _⟩ | ⟨_, h1, h2, h3⟩
      · rw [ho] at h1; cases h1
      · exact ⟨h2, h3, (hcm _).2 (Or.inl ⟨rfl, h1⟩)⟩
    · intro hv p hpp
      refine (hcm _).2 (Or.inl ⟨rfl, ?_⟩)
      unfold tableKeys
      rw [if_pos (by split_ifs <;> omega)]
      simp [hpp]
    · intro l hl k hk
      refine (hcm _).2 (Or.inl ⟨rfl, ?_⟩)
      unfold tableKeys
      dsimp only
      split_ifs <;> simp [hl, hk]

/-- C92, a finding: `verbosity=0` without keys, said to print nothing, prints the same as `verbosity=1`. -/
theorem c92_verbosity_zero (h : List String → ℕ) (pois : List String) (r : Raster)
    (other : Option (List String × Raster)) :
    print h pois r none 0 other = print h pois r none 1 other := by
  unfold print tableKeys
  rfl

/-- C92: the columns of the p-values are chosen from the first hypothesis: if that has a p-value which another hypothesis
lacks, nothing is printed and a `KeyError` is raised, also if nothing else is missing. -/
theorem c92_table_missing (h : List String → ℕ) (pois : List String) (e x : Hypo × REntry) (r : Raster) (hx : x ∈ r)
    (k : String) (hk : k ∈ ["pv", "cls", "clb"]) (hkp : ∀ p ∈ pois, k ≠ p ∧ k ≠ "best_" ++ p) (v : ℝ)
    (he : e.2.data.pvs.get? k = some v) (e' : REntry) (hg : HDict.get? h (e :: r) x.1 = some e')
    (h1 : e'.data.pvs.get? k = none) (h2 : e'.data.testStats.get? k = none) (verbosity : ℤ) (hv : 1 ≤ verbosity) (t) :
    print h pois (e :: r) none verbosity none ≠ .ok t := by
  intro hp
  unfold print at hp
  dsimp only at hp
  obtain ⟨rows, hr, _⟩ := bind_eq_ok.1 hp
  obtain ⟨row, hrow⟩ := mapM_ok_mem hr x (List.mem_cons_of_mem _ hx)
  have hc : (⟨k, false⟩ : Col) ∈ tableCols pois (tableKeys pois none verbosity e.2.data.pvs) false := by
    unfold tableCols
    refine List.mem_flatMap.2 ⟨k, ?_, List.mem_cons_self⟩
    unfold tableKeys
    rw [if_pos (by split_ifs <;> omega)]
    have : k ∈ ["pv", "cls", "clb"].filter fun k => (e.2.data.pvs.get? k).isSome :=
      List.mem_filter.2 ⟨hk, by simp [he]⟩
    simp only [List.mem_append]
    exact Or.inl (Or.inr this)
  obtain ⟨w, hw⟩ := mapM_ok_mem hrow _ hc
  have hnone : pois.find? (fun poi => (k = poi && (Dict.keys x.1).contains poi) || k = "best_" ++ poi) = none := by
    rw [List.find?_eq_none]
    intro p hp
    obtain ⟨g1, g2⟩ := hkp p hp
    simp [g1, g2]
  unfold cell cellValue Raster.keyValue at hw
  dsimp only at hw
  rw [hg] at hw
  dsimp only at hw
  rw [hnone] at hw
  dsimp only at hw
  rw [h1, h2] at hw
  cases hw

namespace DisplayDemo

/-- An entry with these p-values at `mu = x`. -/
noncomputable def entry (x : ℝ) (pvs : Dict ℝ) : Hypo × REntry :=
  ([("mu", x)], { data := ⟨[("mu", x)], none, none, [], pvs, none⟩ })

theorem get_first (h : List String → ℕ) (x : ℝ) (pvs : Dict ℝ) (r : Raster) :
    HDict.get? h (entry x pvs :: r) [("mu", x)] = some (entry x pvs).2 := by
  unfold HDict.get?
  exact if_pos (show Hypo.matches h [("mu", x)] [("mu", x)] from Hypo.matches_refl h (by simp [Hypo.WF, Dict.keys]))

end DisplayDemo

example (h : List String → ℕ) : print h ["mu"] [DisplayDemo.entry 1 [("cls", 1/4), ("pv", 1/2)]] none 0 none =
    .ok (some ([⟨"mu", false⟩, ⟨"pv", false⟩, ⟨"cls", false⟩], [[1, 1/2, 1/4]])) := by
  rw [c92_verbosity_zero]
  unfold print
  dsimp only
  have hc : tableCols ["mu"] (tableKeys ["mu"] none 1 (DisplayDemo.entry 1 [("cls", 1/4), ("pv", 1/2)]).2.data.pvs)
      (none : Option (List String × Raster)).isSome = [⟨"mu", false⟩, ⟨"pv", false⟩, ⟨"cls", false⟩] := by
    simp [tableCols, tableKeys, DisplayDemo.entry, Dict.get?]
  rw [hc]
  simp only [List.mapM_cons, List.mapM_nil, cell, cellValue, Raster.keyValue]
  rw [show (DisplayDemo.entry 1 [("cls", 1/4), ("pv", 1/2)]).1 = [("mu", 1)] from rfl, DisplayDemo.get_first]
  simp [DisplayDemo.entry, Dict.get?, Dict.keys]

example (h : List String → ℕ) (t) :
    print h ["mu"] [DisplayDemo.entry 1 [("pv", 1/2)], DisplayDemo.entry 2 []] none 1 none ≠ .ok t := by
  refine c92_table_missing h ["mu"] _ (DisplayDemo.entry 2 []) _ List.mem_cons_self "pv" (by simp) ?_ (1/2) rfl
    (DisplayDemo.entry 2 []).2 ?_ rfl rfl 1 (le_refl _) t
  · intro p hp
    rw [List.mem_singleton] at hp
    subst hp
    decide
  · unfold HDict.get?
    refine (if_neg ?_).trans (DisplayDemo.get_first h 2 [] [])
    intro hm
    have := hm.2.2 ("mu", 1) (by simp [DisplayDemo.entry])
    simp [Dict.get?, DisplayDemo.entry] at this

/-! ## The plots of pulls and impacts -/

theorem downFrom_get (n k : ℕ) (hk : k < n) : (downFrom n)[k]? = some ((n : ℝ) - k) := by
  simp [downFrom, hk]

theorem stepBars_get : ∀ (ys xs : List ℝ) (k : ℕ) (a b v : ℝ), ys[k]? = some a → ys[k + 1]? = some b →
    xs[k + 1]? = some v → (stepBars ys xs)[k]? = some ((b, a), v)
  | y0 :: y1 :: ys, x0 :: x1 :: xs, 0, a, b, v, h1, h2, h3 => by
    simp only [List.getElem?_cons_zero, List.getElem?_cons_succ, Option.some.injEq] at h1 h2 h3
    subst h1 h2 h3
    rfl
  | y0 :: y1 :: ys, x0 :: x1 :: xs, k + 1, a, b, v, h1, h2, h3 => by
    unfold stepBars
    rw [List.getElem?_cons_succ] at h1 h2 h3 ⊢
    exact stepBars_get (y1 :: ys) (x1 :: xs) k a b v h1 h2 h3
  | [], _, _, _, _, _, h1, _, _ => by simp at h1
  | [_], _, _, _, _, _, _, h2, _ => by simp at h2
  | _ :: _ :: _, [], _, _, _, _, _, _, h3 => by simp at h3
  | _ :: _ :: _, [_], _, _, _, _, _, _, h3 => by simp at h3

/-- C92: each of the first `nMax` NPs has a height of its own (the first one on top), around which both its bars are
drawn and at which its label and its pull are. -/
theorem c92_impacts_aligned (impacts : List Impact) (nMax : ℕ) (k : ℕ) (hk : k < nMax) (i : Impact)
    (hi : impacts[k]? = some i) :
    ∃ y : ℝ, y = (min nMax impacts.length : ℕ) - k + 1 / 2 ∧
      (plotImpacts impacts nMax).posBars[k]? = some ((y - 1 / 2, y + 1 / 2), i.pos) ∧
      (plotImpacts impacts nMax).negBars[k]? = some ((y - 1 / 2, y + 1 / 2), i.neg) ∧
      (y, i.name) ∈ (plotImpacts impacts nMax).labels ∧ (plotImpacts impacts nMax).points[k]? = some (i.bestFit, y) := by
  have hl : (impacts.take nMax).length = min nMax impacts.length := List.length_take
  have hg : (impacts.take nMax)[k]? = some i := by rw [List.getElem?_take_of_lt hk]; exact hi
  set l := impacts.take nMax with hld
  have hkl : k < l.length := (List.getElem?_eq_some_iff.1 hg).1
  have a1 : (downFrom (l.length + 1))[k]? = some ((l.length : ℝ) - k + 1 / 2 + 1 / 2) := by
    rw [downFrom_get _ _ (by omega)]; push_cast; congr 1; ring
  have a2 : (downFrom (l.length + 1))[k + 1]? = some ((l.length : ℝ) - k + 1 / 2 - 1 / 2) := by
    rw [downFrom_get _ _ (by omega)]; push_cast; congr 1; ring
  refine ⟨(l.length : ℝ) - k + 1 / 2, by rw [hl], ?_, ?_, ?_, ?_⟩
  · exact stepBars_get _ _ _ _ _ _ a1 a2 (by rw [List.getElem?_cons_succ, List.getElem?_map, hg]; rfl)
  · exact stepBars_get _ _ _ _ _ _ a1 a2 (by rw [List.getElem?_cons_succ, List.getElem?_map, hg]; rfl)
  · refine List.mem_iff_getElem?.2 ⟨k + 1, ?_⟩
    unfold plotImpacts
    dsimp only
    rw [← hld, List.getElem?_zip_eq_some]
    refine ⟨?_, by simp [hg]⟩
    rw [List.getElem?_map, a2, Option.map_some]
    congr 1; ring
  · unfold plotImpacts
    dsimp only
    rw [← hld, List.getElem?_zip_eq_some]
    refine ⟨by simp [hg], ?_⟩
    rw [List.getElem?_map, downFrom_get _ _ hkl, Option.map_some]

theorem stepBars_length : ∀ (ys xs : List ℝ), ys.length = xs.length → (stepBars ys xs).length = ys.length - 1
  | [], _, _ => rfl
  | [_], [_], _ => rfl
  | y0 :: y1 :: ys, x0 :: x1 :: xs, h => by
    unfold stepBars
    rw [List.length_cons, stepBars_length (y1 :: ys) (x1 :: xs) (by simpa using h)]
    simp

/-- C92: nothing else is drawn: there are as many bars of each kind, and as many pulls, as NPs, at most `nMax`. -/
theorem c92_impacts_number (impacts : List Impact) (nMax : ℕ) :
    (plotImpacts impacts nMax).posBars.length = min nMax impacts.length ∧
    (plotImpacts impacts nMax).negBars.length = min nMax impacts.length ∧
    (plotImpacts impacts nMax).points.length = min nMax impacts.length := by
  unfold plotImpacts
  dsimp only
  refine ⟨?_, ?_, ?_⟩
  · rw [stepBars_length _ _ (by simp [downFrom])]; simp [downFrom]
  · rw [stepBars_length _ _ (by simp [downFrom])]; simp [downFrom]
  · simp [downFrom]

example : (plotImpacts [⟨"a", 1/2, 3, -3⟩, ⟨"b", 0, 2, -1⟩, ⟨"c", 0, 1, -1⟩] 2).posBars = [((2, 3), 3), ((1, 2), 2)] ∧
    (plotImpacts [⟨"a", 1/2, 3, -3⟩, ⟨"b", 0, 2, -1⟩, ⟨"c", 0, 1, -1⟩] 2).points = [(1/2, 5/2), (0, 3/2)] := by
  norm_num [plotImpacts, stepBars, downFrom, List.range_succ]

end Verif.Props
