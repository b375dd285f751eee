import Verif.Lemmas.Local
import Verif.Lemmas.Reparam
import Verif.Model.Tools
/-! Lemmas for the pruning tools. -/
namespace Verif

/-! ### Evaluation with fewer NPs -/

/-- All the entries of `d'` are in `d`. -/
def Dict.Le {V : Type} (d' d : Dict V) : Prop := ∀ k v, d'.get? k = some v → d.get? k = some v

theorem Expr.value_mono {d' d : Dict ℝ} (h : Dict.Le d' d) {nm : String} {e : Expr} {v : ℝ}
    (hv : e.value d' nm = .ok v) : e.value d nm = .ok v := by
  rw [Expr.value_ok_iff] at hv ⊢
  obtain ⟨h1, h2, h3⟩ := hv
  have hk : ∀ k ∈ e.deps nm, Expr.look d' k = Expr.look d k := by
    intro k hk
    obtain ⟨w, hw⟩ := (Dict.mem_keys_iff d' k).1 (h1 k hk)
    simp [Expr.look, hw, h k w hw]
  obtain ⟨e1, e2⟩ := ExprCtx.tval_congr hk
  refine ⟨fun k hk => ?_, e2.1 h2, by rw [h3, e1]⟩
  obtain ⟨w, hw⟩ := (Dict.mem_keys_iff d' k).1 (h1 k hk)
  exact (Dict.mem_keys_iff d k).2 ⟨w, h k w hw⟩

theorem Dict.Le.set {V : Type} {d' d : Dict V} (h : Dict.Le d' d) (k : String) (v : V) :
    Dict.Le (d'.set k v) (d.set k v) := by
  intro j w hj
  rw [Dict.get?_set] at hj ⊢
  split_ifs at hj ⊢ with h0
  · exact hj
  · exact h j w hj

theorem ExprCtx.evalLoop_mono (es : Dict Expr) (d' d r' : Dict ℝ) (h : Dict.Le d' d)
    (hr : evalLoop es d' = .ok r') : ∃ r, evalLoop es d = .ok r ∧ Dict.Le r' r := by
  induction es generalizing d' d with
  | nil => exact ⟨d, rfl, by rw [← Except.ok.inj hr]; exact h⟩
  | cons a es ih =>
    obtain ⟨nm, e⟩ := a
    simp only [evalLoop] at hr
    obtain ⟨v, hv, hr1⟩ := bind_eq_ok.1 hr
    obtain ⟨r, h1, h2⟩ := ih _ _ (h.set nm v) hr1
    exact ⟨r, by simp only [evalLoop, Expr.value_mono h hv, bind_ok, h1], h2⟩

theorem Norm.value_mono {d' d : Dict ℝ} (h : Dict.Le d' d) {nm : Norm} {v : ℝ}
    (hv : nm.value d' = .ok v) : nm.value d = .ok v := by
  cases nm with
  | number w => exact hv
  | expr e =>
    simp only [Norm.value] at hv ⊢
    split_ifs at hv ⊢ with h0
    · exact hv
    · exact Dict.getItem_ok.2 (h e v (Dict.getItem_ok.1 hv))

/-! ### Samples -/

/-- The terms of a sample depend on its impacts and number of bins only. -/
theorem Sample.impact_congr {s s' : Sample} {par : String} (h : s'.impacts.get? par = s.impacts.get? par)
    (hl : s'.nominal_yields.length = s.nominal_yields.length) : s'.impact par = s.impact par := by
  funext v
  simp only [Sample.impact, h, hl]

theorem Sample.avail_congr {s s' : Sample} {par : String} (h : s'.impacts.get? par = s.impacts.get? par) :
    s'.availableVariations par = s.availableVariations par := by
  simp only [Sample.availableVariations, h]

theorem Sample.term_congr {s s' : Sample} {par : String} (h : s'.impacts.get? par = s.impacts.get? par)
    (hl : s'.nominal_yields.length = s.nominal_yields.length) (asym lin : Bool) (vs : Option (List ℝ))
    (b : Nat) (t : ℝ) : s'.term asym lin vs par b t = s.term asym lin vs par b t := by
  simp only [Sample.term, Sample.impactCoefficients, Sample.symImpact, Sample.posVars, Sample.negVars,
    Sample.impact_congr h hl, Sample.avail_congr h]

theorem Dict.get?_filter {V : Type} (d : Dict V) (f : String → Bool) (k : String) :
    Dict.get? (d.filter (fun e => f e.1)) k = if f k then d.get? k else none := by
  induction d with
  | nil => simp
  | cons a d ih =>
    obtain ⟨k', v⟩ := a
    by_cases h : f k' = true
    · rw [List.filter_cons_of_pos (by simpa using h), Dict.get?_cons, ih, Dict.get?_cons]
      by_cases hk : k' = k
      · subst hk; simp [h]
      · simp [hk]
    · rw [List.filter_cons_of_neg (by simpa using h), ih, Dict.get?_cons]
      by_cases hk : k' = k
      · subst hk; simp [h]
      · simp [hk]

namespace Mdl
variable {n P : Nat}

/-- What the removal of several NPs leaves of a sample. -/
structure DroppedFrom (names : List String) (s s' : Sample) : Prop where
  name : s'.name = s.name
  nn : s'.nominal_norm = s.nominal_norm
  yields : s'.nominal_yields = s.nominal_yields
  norm : (∀ k ∈ names, s.norm.isExpr k = false) → s'.norm = s.norm
  normGone : ∀ k ∈ names, s.norm.isExpr k = true → s'.norm = .number s.nominal_norm
  kept : ∀ k, k ∉ names → s'.impacts.get? k = s.impacts.get? k
  sub : ∀ k i, s'.impacts.get? k = some i → s.impacts.get? k = some i

theorem droppedFrom_nil (s : Sample) : DroppedFrom [] s s :=
  ⟨rfl, rfl, rfl, fun _ => rfl, fun k hk => (by cases hk), fun _ _ => rfl, fun _ _ h => h⟩

theorem droppedFrom_snoc {names : List String} {s s' : Sample} (h : DroppedFrom names s s') (k : String) :
    DroppedFrom (names ++ [k]) s (dropFromSample k s') := by
  unfold dropFromSample
  split_ifs with h0
  · refine ⟨h.name, h.nn, h.yields, fun hk => ?_, fun j hj hjs => by rw [h.nn], fun j hj => ?_, h.sub⟩
    · exfalso
      rw [h.norm fun j hj => hk j (by simp [hj]), hk k (by simp)] at h0
      cases h0
    · exact h.kept j (fun hm => hj (by simp [hm]))
  · refine ⟨h.name, h.nn, h.yields, fun hk => h.norm fun j hj => hk j (by simp [hj]), ?_, fun j hj => ?_, ?_⟩
    · intro j hj hjs
      rcases List.mem_append.1 hj with hj | hj
      · exact h.normGone j hj hjs
      · obtain rfl := List.mem_singleton.1 hj
        by_cases hex : ∃ i ∈ names, s.norm.isExpr i = true
        · obtain ⟨i, hi, hie⟩ := hex
          exact h.normGone i hi hie
        · exfalso
          apply h0
          rw [h.norm fun i hi => by
            by_contra hc
            exact hex ⟨i, hi, by simpa using hc⟩]
          exact hjs
    · have : j ≠ k := fun e => hj (by simp [e])
      rw [Dict.get?_filter s'.impacts (fun e => decide (e ≠ k))]
      simp only [ne_eq, this, not_false_eq_true, decide_true, if_true]
      exact h.kept j (fun hm => hj (by simp [hm]))
    · intro j i hj
      rw [Dict.get?_filter s'.impacts (fun e => decide (e ≠ k))] at hj
      split_ifs at hj
      exact h.sub j i hj

theorem forall2_map_right {α β γ : Type} {R : α → β → Prop} {S : α → γ → Prop} {f : β → γ}
    (hf : ∀ a b, R a b → S a (f b)) {l : List α} {l' : List β} (h : List.Forall₂ R l l') :
    List.Forall₂ S l (l'.map f) := by
  induction h with
  | nil => exact .nil
  | cons h1 _ ih => exact .cons (hf _ _ h1) ih

/-- Relation of the channels. -/
def ChanDropped (names : List String) (ch ch' : Channel) : Prop :=
  ch'.name = ch.name ∧ ch'.gaussian = ch.gaussian ∧ ch'.nbins = ch.nbins ∧ ch'.hessian = ch.hessian ∧
    List.Forall₂ (DroppedFrom names) ch.samples ch'.samples

theorem dropNp_foldl (m : Mdl n P) (pv : Dict (Option ℝ)) (l done : List (Fin P))
    (st : (Fin P → ℝ) × List Channel)
    (h1 : ∀ p, st.1 p = if p ∈ done then removedAt pv (m.nps p) else 0)
    (h2 : List.Forall₂ (ChanDropped (done.map fun p => (m.nps p).name)) m.channels st.2) :
    (∀ p, (l.foldl (m.dropNp pv) st).1 p = if p ∈ done ++ l then removedAt pv (m.nps p) else 0) ∧
    List.Forall₂ (ChanDropped ((done ++ l).map fun p => (m.nps p).name)) m.channels
      (l.foldl (m.dropNp pv) st).2 := by
  induction l generalizing done st with
  | nil => simpa using ⟨h1, h2⟩
  | cons q l ih =>
    rw [List.foldl_cons]
    have := ih (done ++ [q]) (m.dropNp pv st q) (fun p => by
        simp only [dropNp, Function.update_apply, h1, List.mem_append, List.mem_singleton]
        by_cases hp : p = q
        · subst hp; simp
        · simp [hp]) (by
        simp only [dropNp, List.map_append, List.map_cons, List.map_nil]
        refine forall2_map_right (fun ch ch' hh => ?_) h2
        obtain ⟨a, b, c, d, e⟩ := hh
        exact ⟨a, b, c, d, forall2_map_right (R := DroppedFrom (done.map fun p => (m.nps p).name))
          (S := DroppedFrom (done.map (fun p => (m.nps p).name) ++ [(m.nps q).name]))
          (f := dropFromSample (m.nps q).name)
          (fun s s' hs => droppedFrom_snoc hs (m.nps q).name) e⟩)
    simpa using this

/-! ### Set-up of the samples of the pruned model -/

theorem foldlM_fix {α β : Type} {f : β → α → Except PyErr β} {d : β} (l : List α)
    (h : ∀ a ∈ l, f d a = .ok d) : l.foldlM f d = .ok d := by
  induction l with
  | nil => rfl
  | cons a l ih =>
    rw [List.foldlM_cons, h a (by simp), bind_ok]
    exact ih fun x hx => h x (by simp [hx])

theorem setNpData_same {rs : RawSample} {nps : List (NP ℝ)} {reals : Dict Expr} {vals : Dict ℝ}
    {fuel : Nat} {nn : ℝ} {ys : List ℝ} (h1 : rs.nominal_norm = some nn) (h2 : rs.nominal_yields = some ys)
    (h : ∀ par ∈ nps, (∃ i, rs.impacts.get? par.name = some i) ∨ ∃ v, rs.norm = .number v) :
    rs.setNpData nps reals vals fuel = .ok ⟨rs.name, rs.norm, nn, ys, rs.impacts⟩ := by
  unfold RawSample.setNpData
  simp only [h1, h2, Option.getD_some]
  refine bind_eq_ok.2 ⟨rs.impacts, foldlM_fix nps fun par hp => ?_, rfl⟩
  rcases h par hp with ⟨i, hi⟩ | ⟨v, hv⟩
  · simp only [hi, pure_ok]
  · cases hi : rs.impacts.get? par.name with
    | some i => simp only [pure_ok]
    | none =>
      have : rs.norm.implicitImpact par reals vals fuel = .ok none := by rw [hv]; rfl
      simp only [this, pure_ok, bind_ok]

/-- The result of the set-up of a model: every sample whose normalisation is an expression has an
impact for each NP. -/
def NpDataSet (m : Mdl n P) : Prop :=
  ∀ ch ∈ m.channels, ∀ smp ∈ ch.samples, ∀ e, smp.norm = .expr e → ∀ p,
    ∃ i, smp.impacts.get? (m.nps p).name = some i

end Mdl
end Verif

namespace Verif
namespace Mdl
variable {n P : Nat}

/-! ### Positions -/

/-- Bin offset of channel number `i`. -/
def chOff (m : Mdl n P) (i : Nat) : Nat := ((m.channels.take i).map (·.nbins)).sum

theorem split_at (m : Mdl n P) {i : Nat} {ch : Channel} (h : m.channels[i]? = some ch) :
    m.channels = m.channels.take i ++ ch :: m.channels.drop (i + 1) := by
  obtain ⟨hi, rfl⟩ := List.getElem?_eq_some_iff.1 h
  rw [List.getElem_cons_drop, List.take_append_drop]

theorem bin_decomp (m : Mdl n P) {b : Nat} (hb : b < m.nbins) :
    ∃ i ch b', m.channels[i]? = some ch ∧ b' < ch.nbins ∧ b = m.chOff i + b' := by
  rw [nbins_eq_sum] at hb
  unfold chOff
  generalize m.channels = l at hb
  induction l generalizing b with
  | nil => simp at hb
  | cons a l ih =>
    by_cases h : b < a.nbins
    · exact ⟨0, a, b, rfl, h, by simp⟩
    · simp only [List.map_cons, List.sum_cons] at hb
      obtain ⟨i, ch, b', h1, h2, h3⟩ := ih (b := b - a.nbins) (by omega)
      refine ⟨i + 1, ch, b', by simpa using h1, h2, ?_⟩
      simp only [List.take_succ_cons, List.map_cons, List.sum_cons]
      omega

/-- The padding is zero. -/
theorem nExp_absent {m : Mdl n P} (hsh : m.YieldsShaped) {A : Arrays} {x : Fin n → ℝ} {θ : Fin P → ℝ}
    {ne} (h : m.nExp A x θ = .ok ne) {i : Nat} {ch : Channel} (hch : m.channels[i]? = some ch) {s : Nat}
    (hlt : s < m.maxSamples) (hs : ch.samples[s]? = none) {b : Nat} (hb : b < ch.nbins) :
    ne s (m.chOff i + b) = 0 := by
  obtain ⟨vals, hv, hc⟩ := nExp_inv h
  obtain ⟨ne', h1, h2⟩ := nExp_ok A θ hv hc
  rw [h] at h1
  obtain rfl := Except.ok.inj h1
  rw [h2 s hlt, yieldAt]
  have : (m.cells s).getD (m.chOff i + b) none = none := by
    unfold cells chOff
    have hsp := m.split_at hch
    have hl := cells_part_length (l := m.channels.take i)
      (fun c hc => hsh c (List.mem_of_mem_take hc)) s
    have e : (m.channels.flatMap fun ch => ch.cells s) = (m.channels.take i).flatMap (fun ch => ch.cells s) ++
        (ch.cells s ++ (m.channels.drop (i + 1)).flatMap fun ch => ch.cells s) := by
      conv_lhs => rw [hsp]
      rw [List.flatMap_append, List.flatMap_cons]
    rw [e]
    rw [List.getD_append_right _ _ _ _ (by
      rw [hl]; simp), hl]
    rw [Nat.add_sub_cancel_left]
    simp only [Channel.cells, hs]
    rw [List.getD_append _ _ _ _ (by simpa using hb)]
    rw [List.getD_eq_getElem _ _ (by simpa using hb)]
    simp
  rw [this]
  simp [cellVal]

theorem nExp_pos {m : Mdl n P} {w : Nat} (hu : m.Uniform w) {A : Arrays} (hA : m.setInternal = .ok A)
    {x : Fin n → ℝ} {θ : Fin P → ℝ} {ne vals} (h : m.nExp A x θ = .ok ne)
    (hv : m.ctx.realVals x = .ok vals) {i : Nat} {ch : Channel} (hch : m.channels[i]? = some ch) {s : Nat}
    {smp : Sample} (hs : ch.samples[s]? = some smp) {b : Nat} (hb : b < ch.nbins) {v : ℝ}
    (hnv : smp.norm.value vals = .ok v) :
    ne s (m.chOff i + b) = v / smp.nominal_norm * smp.nominal_yields.getD b 0 *
      cutOf m.cutoff (combine m.use_linear_nps
      (∑ p, smp.term m.use_asym_impacts m.use_linear_nps m.variations (m.nps p).name b (θ p))) :=
  nExp_local hu hA h hv (m.split_at hch) hs hb hnv

/-- Two models with channels and samples at the same places. -/
structure SameLayout {P' : Nat} (m : Mdl n P) (m' : Mdl n P') : Prop where
  len : m'.channels.length = m.channels.length
  chan : ∀ (i : Nat) (ch ch' : Channel), m.channels[i]? = some ch → m'.channels[i]? = some ch' →
    ch'.nbins = ch.nbins ∧ ch'.samples.length = ch.samples.length

theorem SameLayout.map_nbins {P' : Nat} {m : Mdl n P} {m' : Mdl n P'} (h : SameLayout m m') :
    m'.channels.map (·.nbins) = m.channels.map (·.nbins) := by
  refine List.ext_getElem (by simp [h.len]) fun i h1 h2 => ?_
  simp only [List.length_map] at h1 h2
  simp only [List.getElem_map]
  exact (h.chan i _ _ (List.getElem?_eq_getElem h2) (List.getElem?_eq_getElem h1)).1

theorem SameLayout.nbins {P' : Nat} {m : Mdl n P} {m' : Mdl n P'} (h : SameLayout m m') :
    m'.nbins = m.nbins := by rw [nbins_eq_sum, nbins_eq_sum, h.map_nbins]

theorem SameLayout.chOff {P' : Nat} {m : Mdl n P} {m' : Mdl n P'} (h : SameLayout m m') (i : Nat) :
    m'.chOff i = m.chOff i := by
  unfold Mdl.chOff
  rw [List.map_take, List.map_take, h.map_nbins]

theorem maxSamples_le {P' : Nat} {m : Mdl n P} {m' : Mdl n P'} (h : SameLayout m m') :
    m'.maxSamples ≤ m.maxSamples := by
  by_contra hc
  obtain ⟨ch', hm, hl⟩ := m'.lt_maxSamples (s := m.maxSamples) (by omega)
  obtain ⟨i, hi, rfl⟩ := List.mem_iff_getElem.1 hm
  have h2 : i < m.channels.length := by rw [← h.len]; exact hi
  have := (h.chan i _ _ (List.getElem?_eq_getElem h2) (List.getElem?_eq_getElem hi)).2
  have hle := m.samples_le (List.getElem_mem h2)
  omega

theorem SameLayout.symm {P' : Nat} {m : Mdl n P} {m' : Mdl n P'} (h : SameLayout m m') : SameLayout m' m :=
  ⟨h.len.symm, fun i ch ch' h1 h2 => ⟨(h.chan i _ _ h2 h1).1.symm, (h.chan i _ _ h2 h1).2.symm⟩⟩

theorem SameLayout.maxSamples {P' : Nat} {m : Mdl n P} {m' : Mdl n P'} (h : SameLayout m m') :
    m'.maxSamples = m.maxSamples := le_antisymm (maxSamples_le h) (maxSamples_le h.symm)

/-- Equality of the arrays of expected yields, sample by sample. -/
theorem nExp_eq_of {P' : Nat} {m : Mdl n P} {m' : Mdl n P'} (h : SameLayout m m')
    (hsh : m.YieldsShaped) (hsh' : m'.YieldsShaped) {A A' : Arrays} {x : Fin n → ℝ} {θ : Fin P → ℝ}
    {θ' : Fin P' → ℝ} {ne ne'} (h1 : m.nExp A x θ = .ok ne) (h2 : m'.nExp A' x θ' = .ok ne')
    (heq : ∀ (i : Nat) (ch ch' : Channel) (s : Nat) (smp smp' : Sample), m.channels[i]? = some ch → m'.channels[i]? = some ch' →
      ch.samples[s]? = some smp → ch'.samples[s]? = some smp' → ∀ b < ch.nbins,
      ne s (m.chOff i + b) = ne' s (m.chOff i + b)) :
    ∀ s < m.maxSamples, ∀ b < m.nbins, ne s b = ne' s b := by
  intro s hs b hb
  obtain ⟨i, ch, b', hch, hb', rfl⟩ := m.bin_decomp hb
  have hi : i < m'.channels.length := by
    rw [h.len]; exact (List.getElem?_eq_some_iff.1 hch).1
  have hch' := List.getElem?_eq_getElem hi
  obtain ⟨hn, hl⟩ := h.chan i _ _ hch hch'
  cases hsm : ch.samples[s]? with
  | none =>
    have : m'.channels[i].samples[s]? = none := by
      rw [List.getElem?_eq_none_iff] at hsm ⊢; omega
    rw [nExp_absent hsh h1 hch hs hsm hb', ← h.chOff,
      nExp_absent hsh' h2 hch' (by rw [h.maxSamples]; exact hs) this (by rw [hn]; exact hb')]
  | some smp =>
    have hlt : s < m'.channels[i].samples.length := by
      rw [hl]; exact (List.getElem?_eq_some_iff.1 hsm).1
    exact heq i ch _ s smp _ hch hch' hsm (List.getElem?_eq_getElem hlt) b' hb'

theorem totBinExp_of_nExp {m : Mdl n P} {A : Arrays} {x : Fin n → ℝ} {θ : Fin P → ℝ} {ne}
    (h : m.nExp A x θ = .ok ne) :
    m.totBinExp A x θ = .ok (fun b => ∑ s ∈ Finset.range m.maxSamples, ne s b) := by
  simp only [totBinExp, h, bind_ok]; rfl

theorem nExp_of_totBinExp {m : Mdl n P} {A : Arrays} {x : Fin n → ℝ} {θ : Fin P → ℝ} {N}
    (h : m.totBinExp A x θ = .ok N) : ∃ ne, m.nExp A x θ = .ok ne ∧
      N = fun b => ∑ s ∈ Finset.range m.maxSamples, ne s b := by
  have h' := h
  simp only [totBinExp] at h'
  obtain ⟨ne, hne, _⟩ := bind_eq_ok.1 h'
  rw [totBinExp_of_nExp hne] at h
  exact ⟨ne, hne, (Except.ok.inj h).symm⟩


/-- Yield of a sample in bin `b` of its channel: normalisation, nominal yield, effect of the NPs. -/
noncomputable def sampleYield (m : Mdl n P) (vals : Dict ℝ) (θ : Fin P → ℝ) (smp : Sample) (b : Nat) : ℝ :=
  normVal vals smp.norm / smp.nominal_norm * smp.nominal_yields.getD b 0 *
    cutOf m.cutoff (combine m.use_linear_nps
      (∑ p, smp.term m.use_asym_impacts m.use_linear_nps m.variations (m.nps p).name b (θ p)))

theorem sum_range_list {α : Type} (l : List α) (f : α → ℝ) (g : Nat → ℝ) {M : Nat} (hM : l.length ≤ M)
    (h1 : ∀ s a, l[s]? = some a → g s = f a) (h2 : ∀ s, s < M → l[s]? = none → g s = 0) :
    ∑ s ∈ Finset.range M, g s = (l.map f).sum := by
  induction l generalizing g M with
  | nil => exact Finset.sum_eq_zero fun s hs => h2 s (Finset.mem_range.1 hs) rfl
  | cons a l ih =>
    obtain ⟨M, rfl⟩ : ∃ M', M = M' + 1 := ⟨M - 1, by simp at hM; omega⟩
    rw [Finset.sum_range_succ', List.map_cons, List.sum_cons, add_comm, h1 0 a rfl]
    congr 1
    exact ih (fun s => g (s + 1)) (by simpa using hM) (fun s b hb => h1 (s + 1) b (by simpa using hb))
      (fun s hs hb => h2 (s + 1) (by omega) (by simpa using hb))

/-- The total yield of a bin is the sum over the samples of its channel. -/
theorem tot_local {m : Mdl n P} {w : Nat} (hu : m.Uniform w) {A : Arrays} (hA : m.setInternal = .ok A)
    {x : Fin n → ℝ} {θ : Fin P → ℝ} {N vals} (h : m.totBinExp A x θ = .ok N)
    (hv : m.ctx.realVals x = .ok vals) {i : Nat} {ch : Channel} (hch : m.channels[i]? = some ch) {b : Nat}
    (hb : b < ch.nbins) : N (m.chOff i + b) = (ch.samples.map fun smp => m.sampleYield vals θ smp b).sum := by
  obtain ⟨ne, hne, rfl⟩ := nExp_of_totBinExp h
  obtain ⟨vals', hv', hc⟩ := nExp_inv hne
  rw [hv] at hv'
  obtain rfl := Except.ok.inj hv'
  refine sum_range_list _ _ _ (m.samples_le (List.mem_of_getElem? hch)) (fun s smp hs => ?_) (fun s hs hn => ?_)
  · obtain ⟨v, hvv⟩ := hc.value ch (List.mem_of_getElem? hch) smp (List.mem_of_getElem? hs)
    rw [nExp_pos hu hA hne hv hch hs hb hvv, norm_value_ok hvv]; rfl
  · exact nExp_absent (uniform_shaped hu) hne hch hs hn hb

end Mdl
end Verif
