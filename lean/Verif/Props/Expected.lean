import Verif.Model.Expected
import Verif.Props.NPMin
import Verif.Props.NLL
import Verif.Props.Params
import Verif.Lemmas.Yields
import Verif.Lemmas.Demo
/-! # C77: yields of one channel, expected parameters and expected datasets -/
namespace Verif.Props
open Verif Mdl
variable {n P : Nat}

/-! ### Helpers -/

theorem channelItem_eq {m : Mdl n P} (hn : (m.channels.map (·.name)).Nodup) {ch : Channel} (hch : ch ∈ m.channels) :
    m.channelItem (some ch.name) = .ok ch := by
  simp only [Mdl.channelItem, Mdl.find_channel hn hch]

theorem offsetItem_eq {m : Mdl n P} (hn : (m.channels.map (·.name)).Nodup) {pre post : List Channel} {ch : Channel}
    (hch : m.channels = pre ++ ch :: post) : m.offsetItem (some ch.name) = .ok (pre.map (·.nbins)).sum := by
  have := Mdl.offset_eq hn hch
  simp [Mdl.offsetItem, Dict.getItem, this]

theorem slice_map_range {α : Type} (f : Nat → α) {o k B : Nat} (h : o + k ≤ B) :
    (((List.range B).map f).drop o).take k = (List.range k).map fun b => f (o + b) := by
  apply List.ext_getElem
  · simp; omega
  · intro i h1 h2
    simp

theorem nbins_split {m : Mdl n P} {pre post : List Channel} {ch : Channel} (hch : m.channels = pre ++ ch :: post) :
    (pre.map (·.nbins)).sum + ch.nbins ≤ m.nbins := by
  rw [Mdl.nbins_eq_sum, hch]
  simp

theorem mem_split {m : Mdl n P} {pre post : List Channel} {ch : Channel} (hch : m.channels = pre ++ ch :: post) :
    ch ∈ m.channels := by rw [hch]; simp

theorem offset_absent {m : Mdl n P} {c : String} (hc : c ∉ m.channels.map (·.name)) : m.offsets.get? c = none := by
  have key : ∀ (l : List Channel) (st : ChanState), c ∉ l.map (·.name) →
      (l.foldl (chanStep m.nbinsPoisson) st).offsets.get? c = st.offsets.get? c := by
    intro l
    induction l with
    | nil => intro st _; rfl
    | cons a l ih =>
      intro st h
      simp only [List.map_cons, List.mem_cons, not_or] at h
      rw [List.foldl_cons, ih _ h.2]
      simp only [chanStep]
      exact Dict.get?_set_ne _ _ (Ne.symm h.1)
  exact key m.channels ⟨0, 0, [], fun _ _ => 0⟩ hc

/-- The cells of an absent sample are empty. -/
theorem cells_absent {m : Mdl n P} (hsh : m.YieldsShaped) {pre post : List Channel} {ch : Channel}
    (hch : m.channels = pre ++ ch :: post) {s : Nat} (hs : ch.samples.length ≤ s) {b : Nat} (hb : b < ch.nbins) :
    (m.cells s).getD ((pre.map (·.nbins)).sum + b) none = none := by
  unfold Mdl.cells
  rw [hch, List.flatMap_append, List.flatMap_cons]
  have hl := Mdl.cells_part_length (l := pre) (fun c hc => hsh c (by rw [hch]; simp [hc])) s
  rw [List.getD_append_right _ _ _ _ (by rw [hl]; omega), hl, Nat.add_sub_cancel_left]
  have : ch.samples[s]? = none := List.getElem?_eq_none hs
  simp only [Channel.cells, this]
  rw [List.getD_append _ _ _ _ (by simpa using hb)]
  simp [List.getD_eq_getElem?_getD, hb]

theorem nExp_absent {m : Mdl n P} (hsh : m.YieldsShaped) {A : Mdl.Arrays} {x : Fin n → ℝ} {θ : Fin P → ℝ} {ne}
    (h : m.nExp A x θ = .ok ne) {pre post : List Channel} {ch : Channel} (hch : m.channels = pre ++ ch :: post) {s : Nat}
    (hs : ch.samples.length ≤ s) (hlt : s < m.maxSamples) {b : Nat} (hb : b < ch.nbins) :
    ne s ((pre.map (·.nbins)).sum + b) = 0 := by
  obtain ⟨vals, hv, hc⟩ := Mdl.nExp_inv h
  obtain ⟨ne', h1, h2⟩ := Mdl.nExp_ok A θ hv hc
  rw [h] at h1
  obtain rfl := Except.ok.inj h1
  rw [h2 s hlt, Mdl.yieldAt, cells_absent hsh hch hs hb]
  simp [Mdl.cellVal]

/-! ### Yields of one channel -/

/-- **C77** `channel_n_exp(pars, channel=c)` has one row per sample number and one column per bin of the channel; the
row of a sample of the channel holds its normalisation over the nominal one, times its nominal yields, times the
correction factors of the NPs; the rows beyond the samples of the channel are zero. -/
theorem c77_channel_rows (m : Mdl n P) (hn : (m.channels.map (·.name)).Nodup) (hsh : m.YieldsShaped)
    (A : Mdl.Arrays) (x : Fin n → ℝ) (θ : Fin P → ℝ) (ne : Nat → Nat → ℝ) (h : m.nExp A x θ = .ok ne)
    (pre post : List Channel) (ch : Channel) (hch : m.channels = pre ++ ch :: post) :
    ∃ rows, m.channelNExp A (some (x, θ)) none (some ch.name) none = .ok (.mat rows) ∧
      rows.length = m.maxSamples ∧ (∀ r ∈ rows, r.length = ch.nbins) ∧
      (∀ s smp, ch.samples[s]? = some smp → ∀ b < ch.nbins, ∃ vals v, m.ctx.realVals x = .ok vals ∧
        smp.norm.value vals = .ok v ∧
        (rows.getD s []).getD b 0 = v / smp.nominal_norm * smp.nominal_yields.getD b 0 *
          m.cutKExp A θ s ((pre.map (·.nbins)).sum + b)) ∧
      ∀ s < m.maxSamples, ch.samples.length ≤ s → rows[s]? = some (List.replicate ch.nbins 0) := by
  have hrow : ∀ s, slice (pre.map (·.nbins)).sum ch.nbins ((List.range m.nbins).map (ne s)) =
      (List.range ch.nbins).map fun b => ne s ((pre.map (·.nbins)).sum + b) := fun s =>
    slice_map_range _ (nbins_split hch)
  refine ⟨(List.range m.maxSamples).map fun s => (List.range ch.nbins).map fun b => ne s ((pre.map (·.nbins)).sum + b),
    ?_, by simp, by simp, ?_, ?_⟩
  · simp only [Mdl.channelNExp, h, Except.map, bind_ok, Mdl.pickSampleOpt, offsetItem_eq hn hch,
      channelItem_eq hn (mem_split hch), pure_ok, Mdl.nExpArr, Mdl.cutArr, List.map_map]
    congr 2
    apply List.map_congr_left
    intro s _
    exact hrow s
  · intro s smp hs b hb
    obtain ⟨vals, hv, hc⟩ := Mdl.nExp_inv h
    obtain ⟨v, hval⟩ := hc.value ch (mem_split hch) smp (List.mem_of_getElem? hs)
    have hlt : s < m.maxSamples := lt_of_lt_of_le (List.getElem?_eq_some_iff.1 hs).1 (m.samples_le (mem_split hch))
    refine ⟨vals, v, hv, hval, ?_⟩
    rw [← Mdl.nExp_at hsh h hv hch hs hb hval]
    simp [List.getD_eq_getElem?_getD, hlt, hb]
  · intro s hlt hs
    simp only [List.getElem?_map, List.getElem?_range hlt, Option.map_some, Option.some.injEq]
    apply List.ext_getElem (by simp)
    intro b h1 h2
    simp only [List.length_map, List.length_range] at h1
    simp [nExp_absent hsh h hch hs hlt h1]

/-- **C77** With a sample name the row of that sample alone is returned (names distinct within the channel); a name which
is no sample of the channel raises `ValueError`. -/
theorem c77_sample_row (m : Mdl n P) (hn : (m.channels.map (·.name)).Nodup)
    (A : Mdl.Arrays) (x : Fin n → ℝ) (θ : Fin P → ℝ) (ne : Nat → Nat → ℝ) (h : m.nExp A x θ = .ok ne)
    (ch : Channel) (hch : ch ∈ m.channels) (hd : (ch.samples.map (·.name)).Nodup) :
    (∀ (s : Nat) (smp : Sample), ch.samples[s]? = some smp → ∃ (rows : List (List ℝ)) (r : List ℝ), rows[s]? = some r ∧
      m.channelNExp A (some (x, θ)) none (some ch.name) none = .ok (.mat rows) ∧
      m.channelNExp A (some (x, θ)) none (some ch.name) (some smp.name) = .ok (.vec r)) ∧
    ∀ nm, nm ∉ ch.samples.map (·.name) →
      m.channelNExp A (some (x, θ)) none (some ch.name) (some nm) = .error .valueError := by
  obtain ⟨pre, post, e⟩ := List.append_of_mem hch
  constructor
  · intro s smp hs
    have hs' := List.getElem?_eq_some_iff.1 hs
    have hlt : s < m.maxSamples := lt_of_lt_of_le hs'.1 (m.samples_le hch)
    have hmem : smp.name ∈ ch.samples.map (·.name) := List.mem_map_of_mem (List.mem_of_getElem? hs)
    have hix : (ch.samples.map (·.name)).idxOf smp.name = s := by
      have h1 : s < (ch.samples.map (·.name)).length := by simpa using hs'.1
      have h2 : (ch.samples.map (·.name))[s] = smp.name := by simp [hs'.2]
      rw [← h2]
      exact hd.idxOf_getElem s h1
    refine ⟨(List.range m.maxSamples).map fun s => slice (pre.map (·.nbins)).sum ch.nbins ((List.range m.nbins).map (ne s)),
      slice (pre.map (·.nbins)).sum ch.nbins ((List.range m.nbins).map (ne s)), by simp [hlt], ?_, ?_⟩
    · simp only [Mdl.channelNExp, h, Except.map, bind_ok, Mdl.pickSampleOpt, offsetItem_eq hn e,
        channelItem_eq hn hch, pure_ok, Mdl.nExpArr, Mdl.cutArr, List.map_map]
      rfl
    · have : Mdl.pickSample ch smp.name (m.nExpArr ne) = .ok (.vec ((List.range m.nbins).map (ne s))) := by
        simp only [Mdl.pickSample, if_pos hmem, Mdl.nExpArr, hix]
        simp [hlt]
      simp only [Mdl.channelNExp, h, Except.map, bind_ok, Mdl.pickSampleOpt, offsetItem_eq hn e,
        channelItem_eq hn hch, this, pure_ok, Mdl.cutArr]
  · intro nm hnm
    simp only [Mdl.channelNExp, h, Except.map, bind_ok, Mdl.pickSampleOpt, channelItem_eq hn hch, Mdl.pickSample,
      if_neg hnm, bind_error]

/-- **C77** Given an array of one number per bin (such as the total yields), the pieces of the channels, in the order of
the channels, are consecutive and put together they are the array. -/
theorem c77_partition (m : Mdl n P) (hn : (m.channels.map (·.name)).Nodup) (A : Mdl.Arrays)
    (pars : Option ((Fin n → ℝ) × (Fin P → ℝ))) (l : List ℝ) (hl : l.length = m.nbins) :
    ∃ parts : List (List ℝ), parts.flatten = l ∧
      List.Forall₂ (fun (ch : Channel) r => r.length = ch.nbins ∧
        m.channelNExp A pars (some (.vec l)) (some ch.name) none = .ok (.vec r)) m.channels parts := by
  have key : ∀ (pre post : List Channel), m.channels = pre ++ post →
      ∃ parts : List (List ℝ), parts.flatten = l.drop (pre.map (·.nbins)).sum ∧
      List.Forall₂ (fun (ch : Channel) r => r.length = ch.nbins ∧
        m.channelNExp A pars (some (.vec l)) (some ch.name) none = .ok (.vec r)) post parts := by
    intro pre post
    induction post generalizing pre with
    | nil =>
      intro e
      refine ⟨[], ?_, .nil⟩
      rw [List.append_nil] at e
      rw [List.flatten_nil, List.drop_eq_nil_of_le]
      rw [hl, Mdl.nbins_eq_sum, e]
    | cons ch post ih =>
      intro e
      obtain ⟨parts, h1, h2⟩ := ih (pre ++ [ch]) (by simp [e])
      refine ⟨slice (pre.map (·.nbins)).sum ch.nbins l :: parts, ?_, .cons ⟨?_, ?_⟩ h2⟩
      · rw [List.flatten_cons, h1, slice]
        simp only [List.map_append, List.map_cons, List.map_nil, List.sum_append, List.sum_cons, List.sum_nil, Nat.add_zero]
        rw [← List.drop_drop, List.take_append_drop]
      · have := nbins_split e
        simp [slice]
        omega
      · simp only [Mdl.channelNExp, bind_ok, Mdl.pickSampleOpt, offsetItem_eq hn e, channelItem_eq hn (mem_split e),
          pure_ok, Mdl.cutArr]
  obtain ⟨parts, h1, h2⟩ := key [] m.channels rfl
  exact ⟨parts, by simpa using h1, h2⟩

/-- **C77** The piece of the total yields that belongs to a channel is the sum over the rows of the channel. -/
theorem c77_total (m : Mdl n P) (hn : (m.channels.map (·.name)).Nodup)
    (A : Mdl.Arrays) (x : Fin n → ℝ) (θ : Fin P → ℝ) (N : Nat → ℝ) (h : m.totBinExp A x θ = .ok N)
    (ch : Channel) (hch : ch ∈ m.channels) :
    ∃ rows r, m.channelNExp A (some (x, θ)) none (some ch.name) none = .ok (.mat rows) ∧
      m.channelNExp A none (some (m.totArr N)) (some ch.name) none = .ok (.vec r) ∧ r.length = ch.nbins ∧
      ∀ b < ch.nbins, r.getD b 0 = (rows.map fun row => row.getD b 0).sum := by
  obtain ⟨pre, post, e⟩ := List.append_of_mem hch
  simp only [Mdl.totBinExp] at h
  obtain ⟨ne, hne, h⟩ := bind_eq_ok.1 h
  obtain rfl := Except.ok.inj (ε := PyErr) h
  refine ⟨(List.range m.maxSamples).map fun s => (List.range ch.nbins).map fun b => ne s ((pre.map (·.nbins)).sum + b),
    (List.range ch.nbins).map fun b => ∑ s ∈ Finset.range m.maxSamples, ne s ((pre.map (·.nbins)).sum + b), ?_, ?_, ?_, ?_⟩
  · simp only [Mdl.channelNExp, hne, Except.map, bind_ok, Mdl.pickSampleOpt, offsetItem_eq hn e,
      channelItem_eq hn hch, pure_ok, Mdl.nExpArr, Mdl.cutArr, List.map_map]
    congr 2
    apply List.map_congr_left
    intro s _
    exact slice_map_range _ (nbins_split e)
  · simp only [Mdl.channelNExp, bind_ok, Mdl.pickSampleOpt, offsetItem_eq hn e, channelItem_eq hn hch,
          pure_ok, Mdl.cutArr, Mdl.totArr]
    congr 2
    exact slice_map_range _ (nbins_split e)
  · simp
  · intro b hb
    rw [List.map_map]
    have : ∀ (k : Nat) (f : Nat → ℝ), ((List.range k).map f).sum = ∑ s ∈ Finset.range k, f s := by
      intro k f
      induction k with
      | zero => simp
      | succ k ih => simp [List.range_succ, Finset.sum_range_succ, ih]
    rw [this]
    simp [List.getD_eq_getElem?_getD, hb]

/-- **C77** Without parameters nor yields: `ValueError`.  A name which is no channel of the model, or no name: `KeyError`. -/
theorem c77_errors (m : Mdl n P) (A : Mdl.Arrays) (x : Fin n → ℝ) (θ : Fin P → ℝ) (ne : Nat → Nat → ℝ)
    (h : m.nExp A x θ = .ok ne) (channel sample : Option String) :
    m.channelNExp A none none channel sample = .error .valueError ∧
    ((∀ c, channel = some c → c ∉ m.channels.map (·.name)) →
      m.channelNExp A (some (x, θ)) none channel sample = .error .keyError) := by
  constructor
  · rfl
  · intro hc
    have h1 : m.channelItem channel = .error .keyError := by
      cases channel with
      | none => rfl
      | some c =>
        have : m.channels.find? (fun d => d.name == c) = none := by
          rw [List.find?_eq_none]
          intro d hd e
          exact hc c rfl (List.mem_map.2 ⟨d, hd, by simpa using e⟩)
        simp [Mdl.channelItem, this]
    have h2 : m.offsetItem channel = .error .keyError := by
      cases channel with
      | none => rfl
      | some c =>
        have : m.offsets.get? c = none := offset_absent (hc c rfl)
        simp [Mdl.offsetItem, Dict.getItem, this]
    cases sample <;> simp [Mdl.channelNExp, h, Except.map, Mdl.pickSampleOpt, h1, h2]

/-! ### Expected parameters and datasets -/

theorem mapM_ofFn {α β : Type} {k : Nat} (f : α → Option β) (g : Fin k → α) (h : Fin k → β)
    (e : ∀ i, f (g i) = some (h i)) : (List.ofFn g).mapM f = some (List.ofFn h) := by
  induction k with
  | zero => simp
  | succ k ih =>
    rw [List.ofFn_succ, List.ofFn_succ, List.mapM_cons, e 0, ih _ _ fun i => e i.succ]
    rfl

theorem expectedPars_dict (m : Mdl n P) (A : Mdl.Arrays) (D : Dict ℝ) (x : Fin n → ℝ)
    (hD : ∀ i, D.get? (m.pois i) = some (x i)) (min : Option (Mdl.DataV P)) :
    m.expectedPars A (.pois (.dict D)) min = m.expectedPars A (.pars x 0) min := by
  have : Pars.init m.parModel (.dict D) none = .ok ⟨List.ofFn x, List.replicate P 0⟩ := by
    simp [Pars.init, Mdl.parModel, mapM_ofFn (fun nm => D.get? nm) m.pois x hD]
  simp only [Mdl.expectedPars, this, Except.map, bind_ok]
  have e1 : (fun i : Fin n => (List.ofFn x).getD i 0) = x := by funext i; simp [List.getD_eq_getElem?_getD]
  have e2 : (fun i : Fin P => (List.replicate P (0 : ℝ)).getD i 0) = 0 := by
    funext i; simp [List.getD_eq_getElem?_getD]
  rw [e1, e2]

theorem expectedPars_number (m : Mdl n P) (A : Mdl.Arrays) (c : ℝ) (min : Option (Mdl.DataV P)) :
    m.expectedPars A (.pois (.number c)) min = m.expectedPars A (.pars (fun _ => c) 0) min := by
  have : Pars.init m.parModel (.number c) none = .ok ⟨List.replicate n c, List.replicate P 0⟩ := by
    simp [Pars.init, Mdl.parModel]
  simp only [Mdl.expectedPars, this, Except.map, bind_ok]
  have e1 : (fun i : Fin n => (List.replicate n c).getD i 0) = fun _ => c := by
    funext i; simp [List.getD_eq_getElem?_getD]
  have e2 : (fun i : Fin P => (List.replicate P (0 : ℝ)).getD i 0) = 0 := by
    funext i; simp [List.getD_eq_getElem?_getD]
  rw [e1, e2]

/-- The arguments that stand for given values of the POIs: a dictionary with the value of each POI, a single number for
all of them, or the list of the values in the order of the POIs. -/
def Names (m : Mdl n P) (x : Fin n → ℝ) : PoiArg ℝ → Prop
  | .dict D => ∀ i, D.get? (m.pois i) = some (x i)
  | .number c => ∀ i, x i = c
  | .array l => l = List.ofFn x

theorem expectedPars_names (m : Mdl n P) (A : Mdl.Arrays) (x : Fin n → ℝ) (a : PoiArg ℝ) (h : Names m x a)
    (min : Option (Mdl.DataV P)) : m.expectedPars A (.pois a) min = m.expectedPars A (.pars x 0) min := by
  cases a with
  | dict D => exact expectedPars_dict m A D x h min
  | number c =>
    obtain rfl : x = fun _ => c := funext h
    exact expectedPars_number m A c min
  | array l =>
    obtain rfl : l = List.ofFn x := h
    have : Pars.init m.parModel (.array (List.ofFn x)) none = .ok ⟨List.ofFn x, List.replicate P 0⟩ := by
      simp [Pars.init, Mdl.parModel]
    simp only [Mdl.expectedPars, this, Except.map, bind_ok]
    have e1 : (fun i : Fin n => (List.ofFn x).getD i 0) = x := by funext i; simp [List.getD_eq_getElem?_getD]
    have e2 : (fun i : Fin P => (List.replicate P (0 : ℝ)).getD i 0) = 0 := by
      funext i; simp [List.getD_eq_getElem?_getD]
    rw [e1, e2]

/-- **C77** `generate_expected(pois)` without a minimizer: the counts are the expected yields for these POIs and nominal
NPs, and the aux. obs. are zero. -/
theorem c77_expected_plain (m : Mdl n P) (A : Mdl.Arrays) (x : Fin n → ℝ) (a : PoiArg ℝ) (h : Names m x a)
    (N : Nat → ℝ) (hN : m.totBinExp A x 0 = .ok N) :
    m.expectedPars A (.pois a) none = .ok (x, 0) ∧ m.generateExpected A (.pois a) none = .ok ⟨N, 0⟩ := by
  have : m.expectedPars A (.pois a) none = .ok (x, 0) := by rw [expectedPars_names m A x a h]; rfl
  exact ⟨this, by simp [Mdl.generateExpected, this, Mdl.generateAsimov, hN]⟩

/-- **C77** With `NPMinimizer(data)`: the NPs are those profiled on the dataset at these POIs starting from zero; the
counts are the expected yields at the profiled point and the aux. obs. the profiled NPs. -/
theorem c77_expected_profiled (m : Mdl n P) (A : Mdl.Arrays) (x : Fin n → ℝ) (a : PoiArg ℝ) (h : Names m x a)
    (d : Mdl.DataV P) (θ : Fin P → ℝ) (hθ : m.profile A x 0 d = .ok θ) (N : Nat → ℝ) (hN : m.totBinExp A x θ = .ok N) :
    m.expectedPars A (.pois a) (some d) = .ok (x, θ) ∧ m.generateExpected A (.pois a) (some d) = .ok ⟨N, θ⟩ := by
  have : m.expectedPars A (.pois a) (some d) = .ok (x, θ) := by
    rw [expectedPars_names m A x a h]
    simp [Mdl.expectedPars, hθ, Except.map]
  exact ⟨this, by simp [Mdl.generateExpected, this, Mdl.generateAsimov, hN]⟩

/-- **C77** A dictionary without the value of one of the POIs is refused. -/
theorem c77_expected_missing (m : Mdl n P) (A : Mdl.Arrays) (D : Dict ℝ) (i : Fin n) (hD : D.get? (m.pois i) = none)
    (min : Option (Mdl.DataV P)) : m.generateExpected A (.pois (.dict D)) min = .error .valueError := by
  have h0 : (List.ofFn m.pois).mapM (fun nm => D.get? nm) = none := by
    have hm : m.pois i ∈ List.ofFn m.pois := (List.mem_ofFn' _ _).2 ⟨i, rfl⟩
    generalize List.ofFn m.pois = l at hm
    induction l with
    | nil => cases hm
    | cons a l ih =>
      rw [List.mapM_cons]
      rcases List.mem_cons.1 hm with e | e
      · rw [← e, hD]; rfl
      · rw [ih e]; cases D.get? a <;> rfl
  have : Pars.init m.parModel (.dict D) none = .error .valueError := by
    simp [Pars.init, Mdl.parModel, h0]
  simp [Mdl.generateExpected, Mdl.expectedPars, this, Except.map]

/-- **C77** The Asimov dataset which the calculators use for expected results is the expected dataset for all POIs at
zero and the NPs profiled on the data. -/
theorem c77_calculator_asimov (m : Mdl n P) (A : Mdl.Arrays) (d : Mdl.DataV P) :
    m.asimovData A d = m.generateExpected A (.pois (.number 0)) (some d) := by
  rw [Mdl.generateExpected, expectedPars_number]
  simp only [Mdl.asimovData, Mdl.expectedPars, bind_ok]
  have : (fun _ : Fin n => (0 : ℝ)) = 0 := rfl
  rw [this]
  cases m.profile A 0 0 d <;> rfl

/-- **C77** For a model with Gaussian channels only and symmetric linear impacts, expected datasets are consistent:
generating the expected dataset for the same POIs from the expected dataset gives it back. -/
theorem c77_idempotent (m : Mdl n P) (A : Mdl.Arrays) (x : Fin n → ℝ) (a : PoiArg ℝ) (h : Names m x a) (d : Mdl.DataV P)
    (ha : m.use_asym_impacts = false) (hlin : m.use_linear_nps = true) (hc : m.cutoff = 0)
    (hl : m.use_lognormal_terms = false) (hS : m.HSymm) (hH : m.HPsd) (hG : m.nbinsPoisson = 0)
    (s : Mdl.PQ P) (hs : m.pq A x 0 d = .ok s) (hd : (1 / 1000) ^ P ≤ |s.p.det|) :
    ∃ e, m.generateExpected A (.pois a) (some d) = .ok e ∧ m.generateExpected A (.pois a) (some e) = .ok e := by
  obtain ⟨θ, v, hθ, hv, -⟩ := c19_gaussian_exact m A x d ha hlin hc hl hS hH hG s hs hd
  have hv' := hv
  simp only [Mdl.nll] at hv'
  obtain ⟨N, hN, -⟩ := bind_eq_ok.1 hv'
  refine ⟨⟨N, θ⟩, (c77_expected_profiled m A x a h d θ hθ N hN).2, ?_⟩
  obtain ⟨ne, hne, hI, hz, hsp, -⟩ := Mdl.pq_inv hs
  obtain ⟨s', hs'⟩ := Mdl.pq_ok (⟨N, θ⟩ : Mdl.DataV P) hne (Or.inr rfl) (fun i hi => by rw [hG] at hi; cases hi)
  obtain ⟨ne', hne', -, -, hsp', -⟩ := Mdl.pq_inv hs'
  rw [hne] at hne'
  obtain rfl := Except.ok.inj hne'
  have hp : s'.p = s.p := by
    rw [hsp', hsp]
    congr 2
    · funext i j
      simp [Mdl.pqPoisson, hG, hl]
    · funext i j
      simp [Mdl.pqGaussian, hl]
  obtain ⟨θ', v', hθ', hv', hmin⟩ := c19_gaussian_exact m A x ⟨N, θ⟩ ha hlin hc hl hS hH hG s' hs' (by rw [hp]; exact hd)
  have hgen : m.generateAsimov A x θ = .ok ⟨N, θ⟩ := by simp [Mdl.generateAsimov, hN]
  obtain ⟨v0, h0, hmin0⟩ := c17_asimov_minimum m A hH x θ ⟨N, θ⟩ hgen (fun b hb => by rw [hG] at hb; cases hb) false
  have he : θ = θ' := by
    by_contra hne
    obtain ⟨w, hw, hlt⟩ := hmin θ hne
    rw [h0] at hw
    have hw := Except.ok.inj hw
    rcases hmin0 x θ' _ hv' with h1 | ⟨u, h1, h2⟩
    · cases h1
    · cases h1; cases hw
      linarith
  subst he
  exact (c77_expected_profiled m A x a h _ θ hθ' N hN).2

/-- Finding F93: the documentation says that the NP values of a `Parameters` argument are ignored.  They are not: without a
minimizer they are used as they are, and with one (unless `use_simple_sym_impacts`) any nonzero NP makes the call fail. -/
theorem c77_parameters_not_ignored (m : Mdl n P) (A : Mdl.Arrays) (x : Fin n → ℝ) (θ : Fin P → ℝ) :
    m.expectedPars A (.pars x θ) none = .ok (x, θ) ∧
    m.generateExpected A (.pars x θ) none = m.generateAsimov A x θ ∧
    (m.use_simple_sym_impacts = false → θ ≠ 0 → ∀ d, ∃ e, m.generateExpected A (.pars x θ) (some d) = .error e) := by
  refine ⟨rfl, rfl, fun hs h0 d => ?_⟩
  obtain ⟨e, he⟩ := c18_nonzero_start_fails m A x θ d hs h0
  exact ⟨e, by simp [Mdl.generateExpected, Mdl.expectedPars, he, Except.map]⟩

/-! ### The hypotheses can be met -/

/-- The demo model with two samples and two bins: the rows of its channel. -/
example (A : Mdl.Arrays) (x : Fin 1 → ℝ) : ∃ rows,
    (Demo.mdl true true).channelNExp A (some (x, 0)) none (some "c") none = .ok (.mat rows) ∧ rows.length = 2 ∧
    (rows.getD 1 []).getD 1 0 = 6 := by
  obtain ⟨ne, hne, _⟩ := Mdl.nExp_ok A 0 (Demo.vals true true x) (Demo.computable true true x)
  have hsh : (Demo.mdl true true).YieldsShaped := by
    intro ch hc smp hm
    simp only [Demo.mdl, List.mem_singleton] at hc
    subst hc
    simp only [List.mem_cons, List.not_mem_nil, or_false] at hm
    rcases hm with rfl | rfl <;> simp [Demo.sig, Demo.bkg]
  obtain ⟨rows, h1, h2, -, h3, -⟩ := c77_channel_rows (Demo.mdl true true) (by simp [Demo.mdl]) hsh A x 0 ne hne [] [] _ rfl
  refine ⟨rows, h1, by rw [h2]; simp [Mdl.maxSamples, Mdl.chanState, Demo.mdl, chanStep], ?_⟩
  obtain ⟨vals, v, e1, e2, e3⟩ := h3 1 Demo.bkg rfl 1 (by simp)
  rw [e3, Mdl.cutKExp_zero]
  rw [Demo.vals] at e1
  obtain rfl := Except.ok.inj e1
  simp [Demo.bkg, Norm.value] at e2
  subst e2
  norm_num [Demo.bkg]

/-- The hypotheses of `c77_idempotent` are met by the one-bin Gaussian model with 6 events observed for 1 expected: the
expected dataset for mu = 1 has 2 events and the aux. obs. 2. -/
example : ∃ (m : Mdl 1 1) (A : Mdl.Arrays) (s : Mdl.PQ 1) (N : Nat → ℝ), m.setInternal = .ok A ∧ m.HSymm ∧ m.HPsd ∧
    m.nbinsPoisson = 0 ∧ m.pq A ![1] 0 ⟨fun _ => 6, 0⟩ = .ok s ∧ (1 / 1000) ^ 1 ≤ |s.p.det| ∧ Names m ![1] (.dict [("mu", 1)]) ∧
    m.generateExpected A (.pois (.dict [("mu", 1)])) (some ⟨fun _ => 6, 0⟩) = .ok ⟨N, fun _ => 2⟩ ∧ N 0 = 2 := by
  obtain ⟨A, hA, hs⟩ := Demo.np1_internal true false
  obtain ⟨s, h1, h2, h3⟩ := Demo.np1_pq false hs ![1] 0 ⟨fun _ => 6, 0⟩
  have hp : s.p 0 0 = 5 / 4 := by rw [h2]; norm_num
  have hq : s.q 0 = -5 / 2 := by rw [h3]; norm_num
  obtain ⟨ne, e1, e2⟩ := Demo.np1_ne true false hs ![1] (fun _ => 2)
  have hN : (Demo.np1 true false).totBinExp A ![1] (fun _ => 2) =
      .ok (fun b => ∑ s ∈ Finset.range (Demo.np1 true false).maxSamples, ne s b) := by
    simp only [Mdl.totBinExp, e1, bind_ok]; rfl
  have hnm : Names (Demo.np1 true false) ![1] (.dict [("mu", 1)]) := by
    intro i
    obtain rfl : i = 0 := Subsingleton.elim _ _
    simp [Demo.np1, Dict.get?]
  refine ⟨Demo.np1 true false, A, s, _, hA, Demo.np1_symm _ _, Demo.np1_psd _ _, (Demo.np1_shapes true false).2.2.1, h1, ?_, hnm,
    (c77_expected_profiled _ A ![1] _ hnm _ _ ?_ _ hN).2, ?_⟩
  · have : s.p.det = s.p 0 0 := by simp
    rw [this, hp]; norm_num [abs_of_pos]
  · rw [Demo.profile1 h1 (by rw [hp]; norm_num [abs_of_pos]), hp, hq]
    norm_num
  · rw [(Demo.np1_shapes true false).2.1]
    simp [e2]
    norm_num

end Verif.Props
