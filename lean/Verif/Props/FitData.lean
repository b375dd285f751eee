import Verif.Lemmas.Raster
import Verif.Props.Params
/-!
# C35-C37, C50-C52: hypotheses, fit results, rasters
-/
namespace Verif.Props
open Verif Classical

/-! ### C35: hypotheses as dictionary keys -/

/-- Two hypotheses give the same values to the same parameters (in whatever order). -/
def SameHypo (a b : Hypo) : Prop := ∀ k, Dict.get? a k = Dict.get? b k

/-- The values stored in a raster by a history of assignments `raster[hypo] = value`. -/
noncomputable def rasterOf {V : Type} (h : List String → ℕ) (hist : List (Hypo × V)) : HDict V :=
  hist.foldl (fun d kv => HDict.set h d kv.1 kv.2) []

/-- The last assignment to a hypothesis with the same values. -/
noncomputable def lastStored {V : Type} (hist : List (Hypo × V)) (b : Hypo) : Option V :=
  (hist.reverse.find? (fun kv => decide (SameHypo kv.1 b))).map Prod.snd

/-- `==` on hypotheses is equality of the assignments. -/
theorem c35_equality (a b : Hypo) (ha : (Dict.keys a).Nodup) (hb : (Dict.keys b).Nodup) :
    a.eqv b ↔ SameHypo a b := Hypo.eqv_iff ha hb

/-- Equal hypotheses written in the same POI order have equal hashes. -/
theorem c35_hash (h : List String → ℕ) (a b : Hypo) (hk : Dict.keys a = Dict.keys b) :
    a.hash h = b.hash h := by rw [Hypo.hash, Hypo.hash, hk]

/-- A raster whose hypotheses list the same POIs in the same order behaves as a map: looking up a
hypothesis gives the value last stored under an equal hypothesis, after any history. -/
theorem c35_lookup {V : Type} (h : List String → ℕ) (K : List String) (hK : K.Nodup)
    (hist : List (Hypo × V)) (hh : ∀ kv ∈ hist, Dict.keys kv.1 = K) (b : Hypo)
    (hb : Dict.keys b = K) :
    HDict.get? h (rasterOf h hist) b = lastStored hist b := by
  have hwf : ∀ a : Hypo, Dict.keys a = K → a.WF := fun a e => by unfold Hypo.WF; rw [e]; exact hK
  suffices H : HDict.WF (rasterOf h hist) ∧ HDict.get? h (rasterOf h hist) b = lastStored hist b from H.2
  induction hist using List.reverseRecOn with
  | nil => exact ⟨by intro kv hkv; simp [rasterOf] at hkv, rfl⟩
  | append_singleton l kv ih =>
    obtain ⟨ih1, ih2⟩ := ih (fun x hx => hh x (by simp [hx]))
    have hkv := hh kv (by simp)
    have e : rasterOf h (l ++ [kv]) = HDict.set h (rasterOf h l) kv.1 kv.2 := by simp [rasterOf]
    refine ⟨by rw [e]; exact HDict.wf_set h ih1 (hwf _ hkv) _, ?_⟩
    rw [e, HDict.get?_set h ih1 (hwf _ hkv) (hwf _ hb), ih2]
    have hm : kv.1.matches h b ↔ SameHypo kv.1 b := by
      rw [← c35_equality _ _ (hwf _ hkv) (hwf _ hb)]
      exact ⟨fun x => x.2, fun x => Hypo.matches_of_eqv h (hkv.trans hb.symm) x⟩
    unfold lastStored
    rw [List.reverse_append]
    by_cases hs : SameHypo kv.1 b
    · rw [if_pos (hm.2 hs)]; simp [hs]
    · rw [if_neg (fun x => hs (hm.1 x))]; simp [hs]

/-- **Finding F27.** Equal hypotheses whose POIs are listed in different orders are not found: the hash
depends on the order (here whenever the interpreter's hashes of the two key tuples differ). -/
theorem c35_reordered_missed {V : Type} (h : List String → ℕ) (v : V) (a b : Hypo)
    (hne : h (Dict.keys a) ≠ h (Dict.keys b)) :
    HDict.get? h (rasterOf h [(a, v)]) b = none := by
  have : ¬ a.matches h b := fun hm => hne hm.1
  simp [rasterOf, HDict.set, HDict.get?, this]

/-- Two such hypotheses. -/
example : SameHypo [("mu", 1), ("mH", 125)] [("mH", 125), ("mu", 1)] ∧
    Dict.keys ([("mu", 1), ("mH", 125)] : Hypo) ≠ Dict.keys ([("mH", 125), ("mu", 1)] : Hypo) := by
  constructor
  · intro k
    simp only [Dict.get?]
    by_cases h1 : "mu" = k
    · subst h1; simp
    · simp [h1]
  · decide

/-- A non-trivial history: the second value replaces the first, the third is another hypothesis. -/
example (h : List String → ℕ) :
    HDict.get? h (rasterOf h [([("mu", 1)], 10), ([("mu", 1)], 20), ([("mu", 2)], 30)]) [("mu", 1)] = some 20 := by
  rw [c35_lookup h ["mu"] (by simp) _ (by simp [Dict.keys]) _ (by simp [Dict.keys])]
  have h1 : ¬ SameHypo [("mu", 2)] [("mu", 1)] := fun x => by
    have := x "mu"; simp [Dict.get?] at this
  have h2 : SameHypo [("mu", 1)] [("mu", 1)] := fun _ => rfl
  simp [lastStored, h1, h2]

/-! ### C36: fit results -/

/-- A fit result made from a parameter point gives it back. -/
theorem c36_pars (m : ParModel ℝ) (p : Pars ℝ) (nll : Option ℝ) (hp : Shaped m p) (hd : NamesDistinct m)
    (hv : ∀ np ∈ m.nps, np.variation ≠ 0) :
    ∃ r, FitResult.init m (some p) nll none = .ok r ∧ r.nll = nll ∧ r.pars m = .ok p := by
  obtain ⟨d, e1, e2, e3, e4⟩ := FitResult.init_spec m p nll [] hp.1 hp.2 hd (by simp [Hypo.WF, Dict.keys]) none rfl
  refine ⟨_, e1, rfl, ?_⟩
  rw [FitResult.pars_congr m d (p.dict m false true) nll e2 e3 (fun n _ => by rw [e4]; simp)]
  obtain ⟨q, q1, q2, _⟩ := Pars.init_dict m (p.dict m false true) (fun n hn => by
    rw [Pars.dict_get? m p true hp.1 hp.2 hd, if_pos hn]
    have : m.pois.idxOf n < p.pois.length := by
      rw [hp.1]; exact List.idxOf_lt_length_iff.2 hn
    simp; omega)
  rw [q1, bind_ok]
  exact Pars.dict_roundtrip m p q true hp.1 hp.2 q2.1 q2.2 hd (fun _ => hv)

/-- With a hypothesis, the POIs it names have the hypothesis value, all other parameters the fitted
one. -/
theorem c36_hypo (m : ParModel ℝ) (p : Pars ℝ) (nll : Option ℝ) (hypo : Hypo) (hp : Shaped m p)
    (hd : NamesDistinct m) (hv : ∀ np ∈ m.nps, np.variation ≠ 0) (hw : (Dict.keys hypo).Nodup)
    (hk : ∀ n ∈ Dict.keys hypo, n ∈ m.pois) :
    ∃ r q, FitResult.init m (some p) nll (some hypo) = .ok r ∧ r.nll = nll ∧ r.pars m = .ok q ∧
      Shaped m q ∧ ∀ n, Known m n →
        q.get m n = match Dict.get? hypo n with
          | some x => .ok x
          | none => p.get m n := by
  obtain ⟨d, e1, e2, e3, e4⟩ := FitResult.init_spec m p nll hypo hp.1 hp.2 hd hw (some hypo) rfl
  have hd' : (m.pois ++ m.npNames).Nodup := hd
  -- the point with the hypothesis values
  let f : String → ℝ → ℝ := fun n x => (Dict.get? hypo n).getD x
  set p' : Pars ℝ := ⟨List.zipWith f m.pois p.pois, p.nps⟩ with hp'
  have hs' : Shaped m p' := ⟨by simp [hp', hp.1], hp.2⟩
  have hdict : ∀ n, n ∈ m.pois ∨ n ∈ m.npNames →
      (p'.dict m false true).get? n = (Dict.get? hypo n).or ((p.dict m false true).get? n) := by
    intro n hn
    rw [Pars.dict_get? m p' true hs'.1 hs'.2 hd', Pars.dict_get? m p true hp.1 hp.2 hd']
    by_cases hpn : n ∈ m.pois
    · have hi : m.pois.idxOf n < m.pois.length := List.idxOf_lt_length_iff.2 hpn
      have hi' : m.pois.idxOf n < p.pois.length := by rw [hp.1]; exact hi
      rw [if_pos hpn, if_pos hpn]
      simp only [hp', List.getElem?_zipWith, List.getElem?_eq_getElem hi, List.getElem?_eq_getElem hi',
        f, List.getElem_idxOf]
      cases Dict.get? hypo n <;> simp
    · have : Dict.get? hypo n = none := (Dict.get?_eq_none_iff _ _).2 (fun h => hpn (hk n h))
      rw [if_neg hpn, if_neg hpn, this]; rfl
  have hpars : FitResult.pars m ⟨d, nll⟩ = .ok p' := by
    rw [FitResult.pars_congr m d (p'.dict m false true) nll e2 e3 (fun n hn => by
      rw [e4, hdict n hn])]
    obtain ⟨q, q1, q2, _⟩ := Pars.init_dict m (p'.dict m false true) (fun n hn => by
      rw [Pars.dict_get? m p' true hs'.1 hs'.2 hd', if_pos hn]
      have : m.pois.idxOf n < p'.pois.length := by
        rw [hs'.1]; exact List.idxOf_lt_length_iff.2 hn
      simp; omega)
    rw [q1, bind_ok]
    exact Pars.dict_roundtrip m p' q true hs'.1 hs'.2 q2.1 q2.2 hd (fun _ => hv)
  refine ⟨_, p', e1, rfl, hpars, hs', ?_⟩
  intro n hn
  by_cases hpn : n ∈ m.pois
  · have hi : m.pois.idxOf n < m.pois.length := List.idxOf_lt_length_iff.2 hpn
    have hi' : m.pois.idxOf n < p.pois.length := by rw [hp.1]; exact hi
    simp only [Pars.get, hpn, if_true, hp', List.getElem?_zipWith, List.getElem?_eq_getElem hi,
      List.getElem?_eq_getElem hi', f, List.getElem_idxOf]
    cases Dict.get? hypo n <;> simp
  · have : Dict.get? hypo n = none := (Dict.get?_eq_none_iff _ _).2 (fun h => hpn (hk n h))
    rw [this]
    simp [Pars.get, hpn, hp']

/-- Saving a fit result and loading it gives the same NLL and the same parameters. -/
theorem c36_saved_and_loaded (m : ParModel ℝ) (p : Pars ℝ) (nll : Option ℝ) (o : Option Hypo)
    (hp : Shaped m p) (hd : NamesDistinct m) (hw : ∀ h, o = some h → (Dict.keys h).Nodup) :
    ∃ r r', FitResult.init m (some p) nll o = .ok r ∧
      (⟨[], none⟩ : FitResult).loadDict (r.fillDict []) = .ok r' ∧
      r'.nll = r.nll ∧ r'.pars m = r.pars m := by
  have hw' : (o.getD [] : Hypo).WF := by
    cases o with
    | none => simp [Hypo.WF, Dict.keys]
    | some h => exact hw h rfl
  obtain ⟨d, e1, _⟩ := FitResult.init_spec m p nll (o.getD []) hp.1 hp.2 hd hw' o rfl
  have hm : FitResult.Made m ⟨d, nll⟩ := ⟨p, o, hp, hw', e1⟩
  obtain ⟨r', a, b, c⟩ := hm.reload hd ⟨[], none⟩ FitResult.WF.nil (by simp)
  exact ⟨_, r', e1, a, b, c⟩

/-- **Finding F29.** The parameter ranges do not survive: a parameter without range is loaded with the
range [0, 0], which fixes it to 0. -/
theorem c36_range_lost (n : String) (v : ℝ) :
    ∃ fp, (FitPar.new n none).loadDict ((FitPar.new n (some v)).fillDict []) = .ok fp ∧
      (FitPar.new n (some v)).poi.min_value = none ∧ (FitPar.new n (some v)).poi.max_value = none ∧
      fp.value = some v ∧ fp.poi.min_value = some 0 ∧ fp.poi.max_value = some 0 := by
  obtain ⟨fp, a, _, b, _, c, d⟩ := FitResult.fitPar_load (FitPar.new n (some v)) n rfl n
  exact ⟨fp, a, rfl, rfl, b, by simpa [FitPar.new] using c, by simpa [FitPar.new] using d⟩

/-- A model with one POI and one NP, used in the examples. -/
noncomputable def fitModel : ParModel ℝ :=
  { pois := ["mu"], nps := [{ name := "alpha", nominal_value := 2, variation := 3, constraint := some 3 }] }

example : Shaped fitModel ⟨[1], [0.5]⟩ ∧ NamesDistinct fitModel ∧
    (∀ np ∈ fitModel.nps, np.variation ≠ 0) ∧ (Dict.keys ([("mu", 4)] : Hypo)).Nodup ∧
    ∀ n ∈ Dict.keys ([("mu", 4)] : Hypo), n ∈ fitModel.pois := by
  refine ⟨by simp [Shaped, fitModel], by simp [NamesDistinct, fitModel], by simp [fitModel], by simp [Dict.keys],
    by simp [Dict.keys, fitModel]⟩

/-! ### C37: rasters and the best fit -/

/-- The NLL of the fixed-POI and of the free-POI fit of an entry are `a` and `b`. -/
def FitNlls (d : PLRData) (a b : ℝ) : Prop :=
  ∃ hf ff, d.hypoFit = some hf ∧ d.freeFit = some ff ∧ hf.nll = some a ∧ ff.nll = some b

/-- `raster.plr_data[hypo].test_statistics['tmu']`. -/
def tmuIs (d : PLRData) (t : ℝ) : Prop := Dict.get? d.testStats "tmu" = some t

/-- Building a raster fills `tmu` at every hypothesis with twice the NLL difference of the two fits made
*at that hypothesis*, with or without the global-best-fit option; the fits themselves are unchanged. -/
theorem c37_own_fits (h : List String → ℕ) (m : ParModel ℝ) (r r' : Raster) (g : Bool)
    (e : Raster.init h m r g true = .ok r') :
    List.Forall₂ (fun x x' => x'.1 = x.1 ∧ x'.2.data.freeFit = x.2.data.freeFit ∧
      x'.2.data.hypoFit = x.2.data.hypoFit ∧
      ∃ a b, FitNlls x.2.data a b ∧ tmuIs x'.2.data (2 * (a - b)) ∧ (0 ≤ 2 * (a - b) ↔ b ≤ a)) r r' := by
  refine (Raster.init_spec e).imp ?_
  rintro x x' ⟨h1, a, b, h2, h3⟩
  refine ⟨h1, by rw [h3], by rw [h3], a, b, h2, ?_, by constructor <;> intro <;> linarith⟩
  rw [h3]; exact Dict.get?_set_self _ _ _

/-- Building succeeds when all fits are there and the hypotheses are about POIs of the model. -/
theorem c37_succeeds (h : List String → ℕ) (m : ParModel ℝ) (r : Raster) (g : Bool)
    (hn : ∀ x ∈ r, ∃ a b, FitNlls x.2.data a b) (hw : ∀ x ∈ r, (Dict.keys x.1).Nodup)
    (hk : ∀ x ∈ r, ∀ n ∈ Dict.keys x.1, n ∈ m.pois) :
    ∃ r', Raster.init h m r g true = .ok r' := Raster.init_succeeds h m r g hn hw hk

/-- Exactly when the statistic of every hypothesis is taken against the smallest free-fit NLL `B` of the
raster, with the global-best-fit option on: when all free fits have the same NLL (F28). -/
theorem c37_common_best_iff (h : List String → ℕ) (m : ParModel ℝ) (r r' : Raster) (B : ℝ)
    (e : Raster.init h m r true true = .ok r')
    (_hB : IsLeast {b | ∃ x ∈ r, ∃ a, FitNlls x.2.data a b} B) :
    List.Forall₂ (fun x x' => ∀ a b, FitNlls x.2.data a b → tmuIs x'.2.data (2 * (a - B))) r r' ↔
      ∀ x ∈ r, ∀ a b, FitNlls x.2.data a b → b = B := by
  have H := c37_own_fits h m r r' true e
  constructor
  · intro hc x hx a b hab
    obtain ⟨i, hi, rfl⟩ := List.getElem_of_mem hx
    have hi' : i < r'.length := by rw [← H.length_eq]; exact hi
    have h1 := (List.forall₂_iff_get.1 H).2 i hi hi'
    have h2 := (List.forall₂_iff_get.1 hc).2 i hi hi'
    simp only [List.get_eq_getElem] at h1 h2
    obtain ⟨_, _, _, a', b', hn, ht, _⟩ := h1
    obtain ⟨rfl, rfl⟩ := PLRData.HasNlls.unique hab hn
    have := h2 a b hab
    unfold tmuIs at this ht
    rw [ht] at this
    have := Option.some.inj this
    linarith
  · intro hall
    have key : ∀ x x' : Hypo × REntry, x ∈ r → (x'.1 = x.1 ∧ x'.2.data.freeFit = x.2.data.freeFit ∧
      x'.2.data.hypoFit = x.2.data.hypoFit ∧
      ∃ a b, FitNlls x.2.data a b ∧ tmuIs x'.2.data (2 * (a - b)) ∧ (0 ≤ 2 * (a - b) ↔ b ≤ a)) →
      ∀ a b, FitNlls x.2.data a b → tmuIs x'.2.data (2 * (a - B)) := by
      rintro x x' hx ⟨_, _, _, a', b', hn, ht, _⟩ a b hab
      obtain ⟨rfl, rfl⟩ := PLRData.HasNlls.unique hab hn
      rw [hall x hx a b hab] at ht; exact ht
    clear e _hB
    induction H with
    | nil => exact .nil
    | @cons x x' r r' hx _ ih =>
      refine .cons (key x x' (by simp) hx) (ih ?_ ?_)
      · intro y hy; exact hall y (by simp [hy])
      · intro y y' hy; exact key y y' (by simp [hy])

/-- An entry with given NLL values. -/
noncomputable def demoEntry (mu a b : ℝ) : Hypo × REntry :=
  ([("mu", mu)], ⟨⟨[("mu", mu)], some ⟨[], some b⟩, some ⟨[], some a⟩, [], [], none⟩, none⟩)

/-- **Finding F28.** A raster with the global-best-fit option whose first hypothesis gets `tmu = -2`,
although against the smallest free-fit NLL of the raster it would be `2`. -/
theorem c37_negative_tmu (h : List String → ℕ) :
    ∃ r', Raster.init h fitModel [demoEntry 0 1 2, demoEntry 1 5 0] true true = .ok r' ∧
      ∃ x ∈ r', x.1 = [("mu", 0)] ∧ tmuIs x.2.data (-2) := by
  obtain ⟨r', e⟩ := c37_succeeds h fitModel [demoEntry 0 1 2, demoEntry 1 5 0] true
    (by
      intro x hx
      simp only [List.mem_cons, List.not_mem_nil, or_false] at hx
      rcases hx with rfl | rfl
      · exact ⟨1, 2, _, _, rfl, rfl, rfl, rfl⟩
      · exact ⟨5, 0, _, _, rfl, rfl, rfl, rfl⟩)
    (by intro x hx; simp at hx; rcases hx with rfl | rfl <;> simp [demoEntry, Dict.keys])
    (by intro x hx; simp at hx; rcases hx with rfl | rfl <;> simp [demoEntry, Dict.keys, fitModel])
  refine ⟨r', e, ?_⟩
  have H := c37_own_fits h _ _ _ _ e
  cases H with
  | @cons _ x' _ l h1 _ =>
    obtain ⟨k, _, _, a, b, hn, ht, _⟩ := h1
    have h0 : FitNlls (demoEntry 0 1 2).2.data 1 2 := ⟨_, _, rfl, rfl, rfl, rfl⟩
    obtain ⟨rfl, rfl⟩ := PLRData.HasNlls.unique h0 hn
    refine ⟨x', by simp, k, ?_⟩
    have : (2 : ℝ) * (1 - 2) = -2 := by norm_num
    rw [← this]; exact ht

/-! ### C50: rasters in files -/

/-- `d'` is `d` up to what a file keeps: the hypothesis, statistics, p-values, NLL values and fitted
parameters are the same; the full hypothesis keeps its POIs, its NPs are back at pull 0 (F30). -/
structure Reloaded (m : ParModel ℝ) (d d' : PLRData) : Prop where
  hypo : d'.hypo = d.hypo
  testStats : d'.testStats = d.testStats
  pvs : d'.pvs = d.pvs
  freeFit : ∃ f f', d.freeFit = some f ∧ d'.freeFit = some f' ∧ f'.nll = f.nll ∧ f'.pars m = f.pars m
  hypoFit : ∃ f f', d.hypoFit = some f ∧ d'.hypoFit = some f' ∧ f'.nll = f.nll ∧ f'.pars m = f.pars m
  fullHypo : d'.fullHypo = d.fullHypo.map (fun p => ⟨p.pois, List.replicate m.nps.length 0⟩)

/-- PLR data as a calculator makes it: both fits were made from parameter points of the model (the one at
the hypothesis with or without recalling the hypothesis), the hypothesis is about its POIs. -/
structure GoodData (m : ParModel ℝ) (d : PLRData) : Prop where
  freeFit : ∃ p nll f, Shaped m p ∧ FitResult.init m (some p) (some nll) none = .ok f ∧ d.freeFit = some f
  hypoFit : ∃ p nll o f, Shaped m p ∧ (o = none ∨ o = some d.hypo) ∧
    FitResult.init m (some p) (some nll) o = .ok f ∧ d.hypoFit = some f
  keys : (Dict.keys d.hypo).Nodup ∧ ∀ n ∈ Dict.keys d.hypo, n ∈ m.pois
  fullHypo : ∀ p, d.fullHypo = some p → Shaped m p

theorem init_nll {m : ParModel ℝ} {p : Option (Pars ℝ)} {nll : Option ℝ} {o : Option Hypo} {r : FitResult}
    (h : FitResult.init m p nll o = .ok r) : r.nll = nll := by
  unfold FitResult.init at h
  cases p with
  | none => rw [← Except.ok.inj (ε := PyErr) h]
  | some p =>
    simp only [bind_eq_ok] at h
    obtain ⟨_, _, d, _, h⟩ := h
    rw [← Except.ok.inj (ε := PyErr) h]

theorem GoodData.nlls {m : ParModel ℝ} {d : PLRData} (h : GoodData m d) : ∃ a b, d.HasNlls a b := by
  obtain ⟨_, b, f, _, h1, h2⟩ := h.freeFit
  obtain ⟨_, a, _, g, _, _, h3, h4⟩ := h.hypoFit
  exact ⟨a, b, g, f, h4, h2, init_nll h3, init_nll h1⟩

theorem GoodData.reload {m : ParModel ℝ} {d : PLRData} (h : GoodData m d) (hd : NamesDistinct m)
    (ht : "tmu" ∈ Dict.keys d.testStats) :
    ∃ sd d', PLRData.fillDict m d = .ok sd ∧ PLRData.loadDict m sd = .ok d' ∧ Reloaded m d d' := by
  obtain ⟨p, b, f, hp, h1, h2⟩ := h.freeFit
  obtain ⟨q, a, o, g, hq, ho, h3, h4⟩ := h.hypoFit
  have mf : f.Made m := ⟨p, none, hp, by simp [Hypo.WF, Dict.keys], by rw [init_nll h1]; exact h1⟩
  have mh : g.Made m := ⟨q, o, hq, by rcases ho with rfl | rfl; exacts [by simp [Hypo.WF, Dict.keys], h.keys.1], by rw [init_nll h3]; exact h3⟩
  obtain ⟨sd, d', r1, r2, r3, r4, r5, ⟨f', r6, r7, r8⟩, ⟨g', r9, r10, r11⟩, r12⟩ :=
    PLRData.reload m d f g h2 h4 hd mf mh h.keys.1 h.keys.2 ht h.fullHypo
  exact ⟨sd, d', r1, r2, r3, r4, r5, ⟨f, f', h2, r6, r7, r8⟩, ⟨g, g', h4, r9, r10, r11⟩, r12⟩

/-- PLR data constructed from two fits survives being saved and loaded, except for the NPs of the full
hypothesis. -/
theorem c50_plr_data (m : ParModel ℝ) (d0 d : PLRData) (hd : NamesDistinct m) (hg : GoodData m d)
    (hc : PLRData.update m d0 = .ok d) :
    ∃ sd d', PLRData.fillDict m d = .ok sd ∧ PLRData.loadDict m sd = .ok d' ∧ Reloaded m d d' := by
  refine hg.reload hd (PLRData.update_tmu hc ?_ ?_)
  · obtain ⟨_, _, f, _, _, h⟩ := hg.freeFit; rw [h]; rfl
  · obtain ⟨_, _, _, f, _, _, _, h⟩ := hg.hypoFit; rw [h]; rfl

/-- A raster of such data under different hypotheses, in which `tmu` is twice the NLL difference of the
fits, survives being saved and loaded, in the same order. -/
theorem c50_any_raster (h : List String → ℕ) (m : ParModel ℝ) (r : Raster) (g' : Bool)
    (hd : NamesDistinct m)
    (hgr : ∀ x ∈ r, GoodData m x.2.data ∧ x.1 = x.2.data.hypo ∧
      ∃ a b, FitNlls x.2.data a b ∧ tmuIs x.2.data (2 * (a - b)))
    (hdiff : r.Pairwise (fun x y => ¬ SameHypo x.1 y.1)) :
    ∃ l r', Raster.fillDict m r = .ok l ∧ Raster.loadDict h m l g' true = .ok r' ∧
      List.Forall₂ (fun x x' => x'.1 = x.1 ∧ Reloaded m x.2.data x'.2.data) r r' := by
  -- save and load each entry
  have hsl : ∃ l ds, Raster.fillDict m r = .ok l ∧
      List.Forall₂ (fun x d => PLRData.loadDict m x = .ok d) l ds ∧
      List.Forall₂ (fun (x : Hypo × REntry) d => Reloaded m x.2.data d) r ds := by
    have : ∀ r : Raster, (∀ x ∈ r, GoodData m x.2.data ∧ x.1 = x.2.data.hypo ∧
      ∃ a b, x.2.data.HasNlls a b ∧ Dict.get? x.2.data.testStats "tmu" = some (2 * (a - b))) →
      ∃ l ds, Raster.fillDict m r = .ok l ∧
      List.Forall₂ (fun x d => PLRData.loadDict m x = .ok d) l ds ∧
      List.Forall₂ (fun (x : Hypo × REntry) d => Reloaded m x.2.data d) r ds := by
      intro r
      induction r with
      | nil => intro _; exact ⟨[], [], rfl, .nil, .nil⟩
      | cons x r ih =>
        intro hx
        obtain ⟨l, ds, i1, i2, i3⟩ := ih (fun y hy => hx y (by simp [hy]))
        obtain ⟨gd, _, a, b, _, ht⟩ := hx x (by simp)
        obtain ⟨sd, d', s1, s2, s3⟩ := gd.reload hd ((Dict.mem_keys_iff _ _).2 ⟨_, ht⟩)
        refine ⟨sd :: l, d' :: ds, ?_, .cons s2 i2, .cons s3 i3⟩
        unfold Raster.fillDict at i1 ⊢
        simp only [List.mapM_cons, s1, i1, bind_ok, pure_ok]
    exact this r hgr
  obtain ⟨l, ds, f1, f2, f3⟩ := hsl
  have hh : ds.map (·.hypo) = r.map Prod.fst := by
    have : ∀ (r : Raster) ds, List.Forall₂ (fun (x : Hypo × REntry) d => Reloaded m x.2.data d) r ds →
        (∀ x ∈ r, x.1 = x.2.data.hypo) → ds.map (·.hypo) = r.map Prod.fst := by
      intro r ds hf
      induction hf with
      | nil => intro _; rfl
      | cons a _ ih =>
        intro hx
        simp [a.hypo, hx _ List.mem_cons_self, ih (fun y hy => hx y (by simp [hy]))]
    exact this r ds f3 (fun x hx => (hgr x hx).2.1)
  have hwf : ∀ x ∈ r, x.1.WF := fun x hx => by
    obtain ⟨a, b, _⟩ := hgr x hx
    rw [b]; exact a.keys.1
  have hload := Raster.loadEntries_spec h m l ds f2 [] (by
    simp only [List.map_nil, List.nil_append, hh]
    rw [List.pairwise_map]
    refine List.Pairwise.imp_of_mem ?_ hdiff
    intro x y hx hy hxy hm
    apply hxy
    rw [← c35_equality]
    · exact hm.2
    · obtain ⟨a, b, _⟩ := hgr x hx; rw [b]; exact a.keys.1
    · obtain ⟨a, b, _⟩ := hgr y hy; rw [b]; exact a.keys.1)
  set r1 : Raster := ds.map (fun d => (d.hypo, (⟨d, none⟩ : REntry))) with hr1
  have F1 : List.Forall₂ (fun x x' : Hypo × REntry => x'.1 = x.1 ∧ Reloaded m x.2.data x'.2.data) r r1 := by
    rw [hr1, List.forall₂_map_right_iff]
    have hk : ∀ x ∈ r, x.1 = x.2.data.hypo := fun x hx => (hgr x hx).2.1
    clear hload f2 f1 hr1 hh hgr hwf hdiff
    induction f3 with
    | nil => exact .nil
    | @cons x d r ds a _ ih =>
      exact .cons ⟨by rw [hk x (by simp)]; exact a.hypo, a⟩ (ih (fun y hy => hk y (by simp [hy])))
  have hr1e : ∀ x' ∈ r1, ∃ x ∈ r, x'.1 = x.1 ∧ Reloaded m x.2.data x'.2.data := by
    intro x' hx'
    obtain ⟨i, hi, rfl⟩ := List.getElem_of_mem hx'
    have hi' : i < r.length := by rw [F1.length_eq]; exact hi
    have := (List.forall₂_iff_get.1 F1).2 i hi' hi
    exact ⟨_, List.getElem_mem hi', this⟩
  have nl : ∀ {d d' : PLRData} {a b : ℝ}, Reloaded m d d' → d.HasNlls a b → d'.HasNlls a b := by
    rintro d d' a b hre ⟨hf, ff, h1, h2, h3, h4⟩
    obtain ⟨f, f', e1, e2, e3, _⟩ := hre.freeFit
    obtain ⟨k, k', e5, e6, e7, _⟩ := hre.hypoFit
    rw [h2] at e1; rw [h1] at e5
    cases e1; cases e5
    exact ⟨k', f', e6, e2, by rw [e7, h3], by rw [e3, h4]⟩
  have hn1 : ∀ x' ∈ r1, ∃ a b, x'.2.data.HasNlls a b := by
    intro x' hx'
    obtain ⟨x, hx, _, hre⟩ := hr1e x' hx'
    obtain ⟨_, _, a, b, hn, _⟩ := hgr x hx
    exact ⟨a, b, nl hre hn⟩
  have hw1 : ∀ x' ∈ r1, x'.1.WF := by
    intro x' hx'
    obtain ⟨x, hx, e, _⟩ := hr1e x' hx'
    rw [e]; exact hwf x hx
  obtain ⟨r2, r3, s1, s2, s3⟩ := Raster.stages_succeed h r1 g' hn1 hw1
  refine ⟨l, r3, f1, ?_, ?_⟩
  · have hp : Raster.setPois m r1 = .ok r1 := Raster.setPois_ok (by
      intro x' hx' n hn
      obtain ⟨x, hx, e, _⟩ := hr1e x' hx'
      obtain ⟨gd, e', _⟩ := hgr x hx
      rw [e, e'] at hn
      exact gd.keys.2 n hn)
    unfold Raster.loadDict
    rw [hload]
    simp only [List.nil_append, bind_ok, ← hr1, hp, s1, s2]
  · have F1' : List.Forall₂ (fun x x' : Hypo × REntry => x ∈ r ∧ x'.1 = x.1 ∧ Reloaded m x.2.data x'.2.data) r r1 := by
      rw [List.forall₂_iff_get] at F1 ⊢
      exact ⟨F1.1, fun i hi hi' => ⟨List.getElem_mem hi, F1.2 i hi hi'⟩⟩
    refine Raster.forall2_comp (S := Raster.TmuOf) ?_ F1' s3
    rintro x x' x'' ⟨hx, e, hre⟩ ⟨e', a, b, hn, ed⟩
    obtain ⟨_, _, a', b', hn', ht⟩ := hgr x hx
    obtain ⟨rfl, rfl⟩ := PLRData.HasNlls.unique hn (nl hre hn')
    have : x''.2.data = x'.2.data := by
      rw [ed, Dict.set_same]
      rw [hre.testStats]; exact ht
    refine ⟨e'.trans e, ?_⟩
    rw [this]; exact hre

/-- A raster built from such data under different hypotheses survives being saved and loaded, in the
same order. -/
theorem c50_raster (h : List String → ℕ) (m : ParModel ℝ) (r0 r : Raster) (g g' : Bool)
    (hd : NamesDistinct m)
    (hg : ∀ x ∈ r0, GoodData m x.2.data ∧ x.1 = x.2.data.hypo)
    (hdiff : r0.Pairwise (fun x y => ¬ SameHypo x.1 y.1))
    (hr : Raster.init h m r0 g true = .ok r) :
    ∃ l r', Raster.fillDict m r = .ok l ∧ Raster.loadDict h m l g' true = .ok r' ∧
      List.Forall₂ (fun x x' => x'.1 = x.1 ∧ Reloaded m x.2.data x'.2.data) r r' := by
  have H := Raster.init_spec hr
  have hkeys : r.map Prod.fst = r0.map Prod.fst := Raster.forall2_keys (H.imp fun _ _ x => x.1)
  -- the entries of `r`
  have hgr : ∀ x ∈ r, GoodData m x.2.data ∧ x.1 = x.2.data.hypo ∧
      ∃ a b, x.2.data.HasNlls a b ∧ Dict.get? x.2.data.testStats "tmu" = some (2 * (a - b)) := by
    intro x hx
    obtain ⟨i, hi, rfl⟩ := List.getElem_of_mem hx
    have hi' : i < r0.length := by rw [H.length_eq]; exact hi
    have h1 := (List.forall₂_iff_get.1 H).2 i hi' hi
    simp only [List.get_eq_getElem] at h1
    obtain ⟨k, a, b, hn, e⟩ := h1
    obtain ⟨g1, g2⟩ := hg _ (List.getElem_mem hi')
    refine ⟨?_, ?_, a, b, ?_, ?_⟩
    · rw [e]; exact ⟨g1.freeFit, g1.hypoFit, g1.keys, g1.fullHypo⟩
    · rw [k, g2, e]
    · rw [e]; exact hn
    · rw [e]; exact Dict.get?_set_self _ _ _
  refine c50_any_raster h m r g' hd hgr ?_
  have hm : (r.map Prod.fst).Pairwise (fun a b => ¬ SameHypo a b) := by
    rw [hkeys, List.pairwise_map]; exact hdiff
  rwa [List.pairwise_map] at hm

/-- **Finding F30.** The full hypothesis of a saved entry comes back with its NPs at pull 0. -/
theorem c50_full_hypo_nps_lost (m : ParModel ℝ) (d d' : PLRData) (p : Pars ℝ)
    (h : Reloaded m d d') (hp : d.fullHypo = some p) (hne : p.nps ≠ List.replicate m.nps.length 0) :
    d'.fullHypo ≠ d.fullHypo := by
  rw [h.fullHypo, hp]
  intro e
  simp only [Option.map_some, Option.some.injEq] at e
  exact hne (congrArg Pars.nps e).symm

/-- Data which meets the hypotheses of the theorems above. -/
example : ∃ d : PLRData, GoodData fitModel d ∧ PLRData.update fitModel d = .ok d ∧
    d.fullHypo = some ⟨[1], [0.5]⟩ := by
  have hs : Shaped fitModel ⟨[1], [0.5]⟩ := by simp [Shaped, fitModel]
  have hd : NamesDistinct fitModel := by simp [NamesDistinct, fitModel]
  obtain ⟨f, f1, f2, f3⟩ := c36_pars fitModel ⟨[1], [0.5]⟩ (some 3) hs hd (by simp [fitModel])
  obtain ⟨g, _, g1, _⟩ := c36_hypo fitModel ⟨[1], [0.5]⟩ (some 4) [("mu", 0)] hs hd (by simp [fitModel])
    (by simp [Dict.keys]) (by simp [Dict.keys, fitModel])
  refine ⟨⟨[("mu", 0)], some f, some g, [("tmu", 2)], [], some ⟨[1], [0.5]⟩⟩, ⟨⟨_, _, f, hs, f1, rfl⟩,
    ⟨_, _, _, g, hs, Or.inr rfl, g1, rfl⟩, ⟨by simp [Dict.keys], by simp [Dict.keys, fitModel]⟩, ?_⟩, ?_, rfl⟩
  · intro p hp; simp at hp; subst hp; exact hs
  · exact PLRData.update_noop (by simp [Dict.keys, fitModel]) (by simp [Dict.keys])

/-! ### C51: Asimov values -/

/-- Asimov values are taken position by position; nothing else changes. -/
theorem c51_by_position (r a r' : Raster) (key : String) (e : Raster.setAsimov r a key = .ok r') :
    r.length = a.length ∧ r'.length = r.length ∧
    ∀ i (h : i < r.length) (ha : i < a.length) (h' : i < r'.length),
      r'[i].1 = r[i].1 ∧ ∃ t, tmuIs a[i].2.data t ∧
        Dict.get? r'[i].2.data.testStats key = some t ∧
        ∀ k, k ≠ key → Dict.get? r'[i].2.data.testStats k = Dict.get? r[i].2.data.testStats k := by
  unfold Raster.setAsimov at e
  by_cases hl : r.length = a.length
  · rw [if_neg (by simpa using hl)] at e
    rw [mapM_ok_iff] at e
    have hlen := e.length_eq
    rw [List.length_zip] at hlen
    refine ⟨hl, by omega, ?_⟩
    intro i h ha h'
    have := (List.forall₂_iff_get.1 e).2 i (by rw [List.length_zip]; omega) h'
    simp only [List.get_eq_getElem, List.getElem_zip, Raster.asimovEntry, bind_eq_ok, PLRData.setAsimov] at this
    obtain ⟨d, ⟨t, ht, hd⟩, hr⟩ := this
    have hd := Except.ok.inj (ε := PyErr) hd
    have hr := Except.ok.inj (ε := PyErr) hr
    rw [← hr]
    refine ⟨rfl, t, ?_, ?_, ?_⟩
    · unfold tmuIs
      unfold Dict.getItem at ht
      cases hx : Dict.get? a[i].2.data.testStats "tmu" with
      | none => rw [hx] at ht; cases ht
      | some v => rw [hx] at ht; rw [Except.ok.inj (ε := PyErr) ht]
    · rw [← hd]; exact Dict.get?_set_self _ _ _
    · intro k hk; rw [← hd]; exact Dict.get?_set_ne _ _ (fun x => hk x.symm)
  · rw [if_pos (by simpa using hl)] at e; cases e

/-- With the hypotheses of both rasters in the same order, every hypothesis gets the Asimov value of the
same hypothesis. -/
theorem c51_same_order (r a r' : Raster) (key : String) (e : Raster.setAsimov r a key = .ok r')
    (ho : r.map Prod.fst = a.map Prod.fst) :
    ∀ x' ∈ r', ∃ y ∈ a, y.1 = x'.1 ∧ ∃ t, tmuIs y.2.data t ∧
      Dict.get? x'.2.data.testStats key = some t := by
  obtain ⟨h1, h2, h3⟩ := c51_by_position r a r' key e
  intro x' hx'
  obtain ⟨i, hi, rfl⟩ := List.getElem_of_mem hx'
  have hr : i < r.length := by omega
  have ha : i < a.length := by omega
  obtain ⟨k, t, ht, hk, _⟩ := h3 i hr ha hi
  refine ⟨a[i], List.getElem_mem ha, ?_, t, ht, hk⟩
  rw [k]
  have : (r.map Prod.fst)[i]'(by simpa using hr) = (a.map Prod.fst)[i]'(by simpa using ha) := by
    simp only [ho]
  simpa using this.symm

/-- Rasters of different sizes are refused. -/
theorem c51_sizes (r a : Raster) (key : String) (h : r.length ≠ a.length) :
    Raster.setAsimov r a key = .error .keyError := by
  unfold Raster.setAsimov; rw [if_pos h]

/-- An entry with a given statistic. -/
noncomputable def tmuEntryOf (mu t : ℝ) : Hypo × REntry :=
  ([("mu", mu)], ⟨⟨[("mu", mu)], none, none, [("tmu", t)], [], none⟩, none⟩)

/-- **Finding F31.** With the hypotheses in another order the Asimov value of another hypothesis is taken,
without an error. -/
theorem c51_other_order :
    ∃ r', Raster.setAsimov [tmuEntryOf 0 1, tmuEntryOf 1 2] [tmuEntryOf 1 20, tmuEntryOf 0 10] "tmu_A0" = .ok r' ∧
      ∃ x ∈ r', x.1 = [("mu", 0)] ∧ Dict.get? x.2.data.testStats "tmu_A0" = some 20 ∧
        tmuIs (tmuEntryOf 0 10).2.data 10 := by
  refine ⟨_, rfl, ?_⟩
  refine ⟨_, List.mem_cons_self, rfl, ?_, ?_⟩
  · simp [Dict.get?, Dict.set, tmuEntryOf]
  · simp [tmuIs, Dict.get?, tmuEntryOf]

example : ∃ r', Raster.setAsimov [tmuEntryOf 0 1, tmuEntryOf 1 2] [tmuEntryOf 0 10, tmuEntryOf 1 20] "tmu_A0" = .ok r' ∧
    [tmuEntryOf 0 1, tmuEntryOf 1 2].map Prod.fst = [tmuEntryOf 0 10, tmuEntryOf 1 20].map Prod.fst :=
  ⟨_, rfl, rfl⟩

/-! ### C52: what is filled -/

/-- By default, a key counts as filled exactly when every hypothesis has it as a p-value or as a
statistic. -/
theorem c52_is_filled (r : Raster) (key : String) :
    Raster.isFilled r key = true ↔
      ∀ x ∈ r, (∃ v, Dict.get? x.2.data.pvs key = some v) ∨ ∃ v, Dict.get? x.2.data.testStats key = some v := by
  unfold Raster.isFilled
  simp only [Bool.not_eq_true', List.any_eq_false, Bool.not_false, Bool.and_true, Bool.and_eq_true,
    decide_eq_true_eq, not_and_or, not_not, Dict.mem_keys_iff]

/-- A filled key can be read at every hypothesis of the raster: it is the p-value, or else the
statistic, of an entry stored under an equal hypothesis. -/
theorem c52_then_readable (h : List String → ℕ) (pois : List String) (r : Raster) (key : String)
    (hypo : Hypo) (hw : (Dict.keys hypo).Nodup) (hm : hypo ∈ r.map Prod.fst)
    (hk : ∀ p ∈ pois, key ≠ p ∧ key ≠ "best_" ++ p)
    (hf : Raster.isFilled r key = true) :
    ∃ e v, HDict.get? h r hypo = some e ∧ Raster.keyValue h pois r key hypo = .ok (some v) ∧
      (Dict.get? e.data.pvs key).or (Dict.get? e.data.testStats key) = some v := by
  obtain ⟨e, he⟩ := Option.isSome_iff_exists.1 (HDict.get?_isSome_of_mem h r hypo hw hm)
  have hmem : ∃ k, (k, e) ∈ r := by
    clear hf hm
    induction r with
    | nil => simp [HDict.get?] at he
    | cons x r ih =>
      unfold HDict.get? at he
      by_cases hx : x.1.matches h hypo
      · rw [if_pos hx] at he
        have : x.2 = e := Option.some.inj he
        exact ⟨x.1, by rw [← this]; simp⟩
      · rw [if_neg hx] at he
        obtain ⟨k, hk⟩ := ih he
        exact ⟨k, by simp [hk]⟩
  obtain ⟨k, hk'⟩ := hmem
  have hx := (c52_is_filled r key).1 hf _ hk'
  have hnone : pois.find? (fun poi => (key = poi && (Dict.keys hypo).contains poi) || key = "best_" ++ poi) = none := by
    rw [List.find?_eq_none]
    intro p hp
    obtain ⟨h1, h2⟩ := hk p hp
    simp [h1, h2]
  unfold Raster.keyValue
  rw [he]
  simp only [hnone]
  cases hp : Dict.get? e.data.pvs key with
  | some v => exact ⟨e, v, rfl, by simp, by rw [hp]; rfl⟩
  | none =>
    rcases hx with ⟨v, hv⟩ | ⟨v, hv⟩
    · rw [hp] at hv; cases hv
    · exact ⟨e, v, rfl, by simp [hv], by rw [hp, hv]; rfl⟩

/-- **Finding F32.** Asked about p-values only (or statistics only), `is_filled` always answers yes. -/
theorem c52_only_pv_always_true (r : Raster) (key : String) :
    Raster.isFilled r key true false = true ∧ Raster.isFilled r key false true = true := by
  unfold Raster.isFilled
  constructor
  · simp
  · simp

/-- A raster without any p-value: filled by the restricted test, not by the default one. -/
example : Raster.isFilled [tmuEntryOf 0 1] "pv" = false ∧ Raster.isFilled [tmuEntryOf 0 1] "pv" true = true := by
  constructor
  · simp [Raster.isFilled, tmuEntryOf, Dict.keys]
  · exact (c52_only_pv_always_true _ _).1

end Verif.Props
