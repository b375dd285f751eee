import Verif.Model.Core
import Verif.Lemmas.ExprCtx
/-! Lemmas about `Mdl`: shapes, stacking, the value of the NLL. -/
namespace Verif

/-! ### `Flt` -/
namespace Flt
theorem sum_fin {α : Type} (l : List α) (g : α → ℝ) :
    sum (l.map fun a => fin (g a)) = fin (l.map g).sum := by
  induction l with
  | nil => rfl
  | cons a l ih => simp only [sum, List.map_cons, List.foldr_cons, List.sum_cons] at ih ⊢; rw [ih]; rfl

theorem sum_congr {α : Type} (l : List α) (h : α → Flt) (g : α → ℝ) (e : ∀ a ∈ l, h a = fin (g a)) :
    sum (l.map h) = fin (l.map g).sum := by
  rw [← sum_fin, List.map_congr_left e]
end Flt

theorem list_range_sum (k : Nat) (g : Nat → ℝ) : ((List.range k).map g).sum = ∑ b ∈ Finset.range k, g b := by
  induction k with
  | zero => rfl
  | succ k ih => rw [List.range_succ, List.map_append, List.sum_append, ih, Finset.sum_range_succ]; simp

namespace Mdl
variable {n P : Nat}

/-! ### Shapes -/
theorem chanStep_foldl_nbins (nP : Nat) (l : List Channel) (st : ChanState) :
    (l.foldl (chanStep nP) st).nbins = st.nbins + (l.map (·.nbins)).sum := by
  induction l generalizing st with
  | nil => simp
  | cons a l ih => simp [ih, chanStep]; omega

theorem nbins_eq_sum (m : Mdl n P) : m.nbins = (m.channels.map (·.nbins)).sum := by
  simp [nbins, chanState, chanStep_foldl_nbins]

theorem nbins_eq (m : Mdl n P) : m.nbins = m.nbinsPoisson + m.nbinsGaussian := by
  rw [nbins_eq_sum, nbinsPoisson, nbinsGaussian]
  induction m.channels with
  | nil => rfl
  | cons a l ih =>
    cases h : a.gaussian <;> simp [h, ih] <;> omega

theorem chanStep_foldl_max (nP : Nat) (l : List Channel) (st : ChanState) :
    st.maxSamples ≤ (l.foldl (chanStep nP) st).maxSamples ∧
    ∀ ch ∈ l, ch.samples.length ≤ (l.foldl (chanStep nP) st).maxSamples := by
  induction l generalizing st with
  | nil => simp
  | cons a l ih =>
    have h1 := (ih (chanStep nP st a)).1
    have h2 : st.maxSamples ≤ (chanStep nP st a).maxSamples ∧
        a.samples.length ≤ (chanStep nP st a).maxSamples := by
      simp only [chanStep]; split_ifs <;> omega
    refine ⟨by simpa using h2.1.trans h1, ?_⟩
    intro ch hc
    rcases List.mem_cons.1 hc with rfl | hc
    · simpa using h2.2.trans h1
    · simpa using (ih (chanStep nP st a)).2 ch hc

theorem samples_le (m : Mdl n P) {ch : Channel} (h : ch ∈ m.channels) :
    ch.samples.length ≤ m.maxSamples :=
  (chanStep_foldl_max _ _ _).2 ch h

/-! ### Stacking -/

/-- The sample and nominal yield found at each bin of a channel in row `s` (`none`: padding). -/
def _root_.Verif.Channel.cells (ch : Channel) (s : Nat) : List (Option (Sample × ℝ)) :=
  match ch.samples[s]? with
    | some smp => smp.nominal_yields.map (fun y => some (smp, y))
    | none => List.replicate ch.nbins none

/-- The sample and nominal yield found at each bin of row `s` (`none`: padding). -/
def cells (m : Mdl n P) (s : Nat) : List (Option (Sample × ℝ)) :=
  m.channels.flatMap fun ch => ch.cells s

/-- Value of a cell. -/
def cellVal {α : Type} [Zero α] (F : Sample → ℝ → α) (o : Option (Sample × ℝ)) : α :=
  o.elim 0 (fun q => F q.1 q.2)

variable {α : Type} [Zero α]

/-- Row of one channel. -/
def partVal (F : Sample → ℝ → α) (ch : Channel) (s : Nat) : List α :=
  match ch.samples[s]? with
  | some smp => smp.nominal_yields.map (F smp)
  | none => List.replicate ch.nbins 0

theorem row_ok (m : Mdl n P) (f : Sample → Except PyErr (List α)) (F : Sample → ℝ → α) (s : Nat)
    (hf : ∀ ch ∈ m.channels, ∀ smp ∈ ch.samples, f smp = .ok (smp.nominal_yields.map (F smp))) :
    (m.channels.mapM fun ch => ch.part s f) = .ok (m.channels.map fun ch => partVal F ch s) := by
  apply mapM_map_ok
  intro ch hc
  simp only [Channel.part, partVal]
  cases h : ch.samples[s]? with
  | none => rfl
  | some smp => exact hf ch hc smp (List.mem_of_getElem? h)

theorem row_flatten (m : Mdl n P) (F : Sample → ℝ → α) (s : Nat) :
    (m.channels.map fun ch => partVal F ch s).flatten = (m.cells s).map (cellVal F) := by
  unfold cells
  induction m.channels with
  | nil => rfl
  | cons a l ih =>
    simp only [List.map_cons, List.flatten_cons, List.flatMap_cons, List.map_append, ih]
    congr 1
    simp only [partVal, Channel.cells]
    cases h : a.samples[s]? with
    | none => simp [cellVal]
    | some smp => simp [cellVal, Function.comp_def]

/-- All rows have the right length. -/
def ShapeOk (m : Mdl n P) : Prop := ∀ s < m.maxSamples, (m.cells s).length = m.nbins

theorem stackRows_ok (m : Mdl n P) (f : Sample → Except PyErr (List α)) (F : Sample → ℝ → α)
    (hs : m.ShapeOk)
    (hf : ∀ ch ∈ m.channels, ∀ smp ∈ ch.samples, f smp = .ok (smp.nominal_yields.map (F smp))) :
    m.stackRows f = .ok ((List.range m.maxSamples).map fun s => (m.cells s).map (cellVal F)) := by
  apply mapM_map_ok
  intro s h
  rw [row_ok m f F s hf, bind_ok, row_flatten, if_neg]
  · rfl
  · simpa using hs s (List.mem_range.1 h)

/-- If stacking succeeds then `f` succeeds on every sample. -/
theorem stackRows_inv (m : Mdl n P) (f : Sample → Except PyErr (List α)) {rows}
    (h : m.stackRows f = .ok rows) :
    ∀ ch ∈ m.channels, ∀ smp ∈ ch.samples, ∃ r, f smp = .ok r := by
  intro ch hc smp hm
  obtain ⟨s, hs, he⟩ := List.mem_iff_getElem.1 hm
  have hlt : s < m.maxSamples := lt_of_lt_of_le hs (m.samples_le hc)
  obtain ⟨row, hrow⟩ := mapM_ok_mem h _ (List.mem_range.2 hlt)
  obtain ⟨parts, hp, _⟩ := bind_eq_ok.1 hrow
  obtain ⟨r, hr⟩ := mapM_ok_mem hp _ hc
  have : ch.samples[s]? = some smp := by rw [List.getElem?_eq_getElem hs, he]
  simp only [Channel.part, this] at hr
  exact ⟨r, hr⟩

/-- and the rows have the right shape and content. -/
theorem stackRows_inv_shape (m : Mdl n P) (f : Sample → Except PyErr (List α)) (F : Sample → ℝ → α)
    {rows} (h : m.stackRows f = .ok rows)
    (hf : ∀ ch ∈ m.channels, ∀ smp ∈ ch.samples, ∀ r, f smp = .ok r →
      r = smp.nominal_yields.map (F smp)) : m.ShapeOk := by
  have hf' : ∀ ch ∈ m.channels, ∀ smp ∈ ch.samples, f smp = .ok (smp.nominal_yields.map (F smp)) := by
    intro ch hc smp hm
    obtain ⟨r, hr⟩ := stackRows_inv m f h ch hc smp hm
    rw [hr, hf ch hc smp hm r hr]
  intro s hs
  obtain ⟨row, hrow⟩ := mapM_ok_mem h _ (List.mem_range.2 hs)
  rw [row_ok m f F s hf', bind_ok, row_flatten] at hrow
  by_contra hne
  rw [if_pos (by simpa using hne)] at hrow
  cases hrow

theorem rows_getD (m : Mdl n P) (F : Sample → ℝ → α) (s b : Nat) (hs : s < m.maxSamples) :
    (((List.range m.maxSamples).map fun s => (m.cells s).map (cellVal F)).getD s []).getD b 0
      = cellVal F ((m.cells s).getD b none) := by
  have h0 : cellVal F none = 0 := rfl
  have h1 : ((List.range m.maxSamples).map fun s => (m.cells s).map (cellVal F)).getD s []
      = (m.cells s).map (cellVal F) := by
    rw [List.getD_eq_getElem?_getD, List.getElem?_map, List.getElem?_range hs]; rfl
  rw [h1, List.getD_eq_getElem?_getD, List.getD_eq_getElem?_getD, List.getElem?_map]
  cases (m.cells s)[b]? <;> rfl

/-! ### Yields -/

/-- A sample's normalisation is evaluated without error. -/
noncomputable def normVal (vals : Dict ℝ) : Norm → ℝ
  | .number v => v
  | .expr e => if e = "" then 1 else Expr.look vals e

theorem norm_value_ok {vals : Dict ℝ} {nm : Norm} {v : ℝ} (h : nm.value vals = .ok v) :
    v = normVal vals nm := by
  cases nm with
  | number w => simpa [Norm.value, eq_comm, normVal] using h
  | expr e =>
    simp only [Norm.value] at h
    simp only [normVal]
    split_ifs at h ⊢ with he
    · exact (Except.ok.inj h).symm
    · simp [Expr.look, Dict.getItem_ok.1 h]

/-- Value of a yields cell. -/
noncomputable def cellYield (vals : Dict ℝ) (s : Sample) (y : ℝ) : ℝ :=
  normVal vals s.norm / s.nominal_norm * y

theorem yields_inv {s : Sample} {vals : Dict ℝ} {r : List ℝ} (h : s.yields vals = .ok r) :
    r = s.nominal_yields.map (cellYield vals s) ∧ s.nominal_norm ≠ 0 ∧
      s.norm.value vals = .ok (normVal vals s.norm) := by
  simp only [Sample.yields, Sample.normalization] at h
  obtain ⟨c, hc, h⟩ := bind_eq_ok.1 h
  obtain ⟨v, hv, hc⟩ := bind_eq_ok.1 hc
  have hv' := norm_value_ok hv
  by_cases h0 : s.nominal_norm = 0
  · simp [h0] at hc
  · simp only [h0, if_false, bind_ok, pure_ok] at hc h
    have hc := Except.ok.inj hc
    have h := Except.ok.inj h
    refine ⟨?_, h0, by rw [hv, hv']⟩
    rw [← h, ← hc, hv']; rfl

theorem yields_ok {s : Sample} {vals : Dict ℝ} (h0 : s.nominal_norm ≠ 0)
    (hv : ∃ v, s.norm.value vals = .ok v) :
    s.yields vals = .ok (s.nominal_yields.map (cellYield vals s)) := by
  obtain ⟨v, hv⟩ := hv
  have := norm_value_ok hv
  subst this
  simp [Sample.yields, Sample.normalization, hv, h0, cellYield]

/-- Everything needed to compute yields is in order. -/
structure Computable (m : Mdl n P) (vals : Dict ℝ) : Prop where
  shape : m.ShapeOk
  norm0 : ∀ ch ∈ m.channels, ∀ smp ∈ ch.samples, smp.nominal_norm ≠ 0
  value : ∀ ch ∈ m.channels, ∀ smp ∈ ch.samples, ∃ v, smp.norm.value vals = .ok v

theorem nExp_inv {m : Mdl n P} {A : Arrays} {x : Fin n → ℝ} {θ : Fin P → ℝ} {ne}
    (h : m.nExp A x θ = .ok ne) :
    ∃ vals, m.ctx.realVals x = .ok vals ∧ m.Computable vals := by
  simp only [nExp] at h
  obtain ⟨vals, hv, h⟩ := bind_eq_ok.1 h
  obtain ⟨rows, hr, h⟩ := bind_eq_ok.1 h
  refine ⟨vals, hv, ?_, ?_, ?_⟩
  · exact stackRows_inv_shape m _ (cellYield vals) hr (fun ch _ smp _ r hr => (yields_inv hr).1)
  · intro ch hc smp hm
    obtain ⟨r, hr⟩ := stackRows_inv m _ hr ch hc smp hm
    exact (yields_inv hr).2.1
  · intro ch hc smp hm
    obtain ⟨r, hr⟩ := stackRows_inv m _ hr ch hc smp hm
    exact ⟨_, (yields_inv hr).2.2⟩

/-- The expected yield of sample `s` in bin `b`. -/
noncomputable def yieldAt (m : Mdl n P) (A : Arrays) (vals : Dict ℝ) (θ : Fin P → ℝ) (s b : Nat) : ℝ :=
  cellVal (cellYield vals) ((m.cells s).getD b none) * m.cutKExp A θ s b

theorem nExp_ok {m : Mdl n P} (A : Arrays) {x : Fin n → ℝ} (θ : Fin P → ℝ) {vals}
    (hv : m.ctx.realVals x = .ok vals) (hc : m.Computable vals) :
    ∃ ne, m.nExp A x θ = .ok ne ∧ ∀ s < m.maxSamples, ∀ b, ne s b = m.yieldAt A vals θ s b := by
  have h1 := stackRows_ok m (fun s => s.yields vals) (cellYield vals) hc.shape (fun ch h smp h' =>
      yields_ok (hc.norm0 ch h smp h') (hc.value ch h smp h'))
  refine ⟨fun s b => (((List.range m.maxSamples).map fun s =>
    (m.cells s).map (cellVal (cellYield vals))).getD s []).getD b 0 * m.cutKExp A θ s b, ?_, ?_⟩
  · simp only [nExp, hv, bind_ok, h1]; rfl
  · intro s hs b
    simp only [yieldAt]
    rw [← rows_getD m (cellYield vals) s b hs]

/-- Total expected yield of bin `b`. -/
noncomputable def totAt (m : Mdl n P) (A : Arrays) (vals : Dict ℝ) (θ : Fin P → ℝ) (b : Nat) : ℝ :=
  ∑ s ∈ Finset.range m.maxSamples, m.yieldAt A vals θ s b

theorem tot_ok {m : Mdl n P} (A : Arrays) {x : Fin n → ℝ} (θ : Fin P → ℝ) {vals}
    (hv : m.ctx.realVals x = .ok vals) (hc : m.Computable vals) :
    m.totBinExp A x θ = .ok (m.totAt A vals θ) := by
  obtain ⟨ne, h1, h2⟩ := nExp_ok A θ hv hc
  simp only [totBinExp, h1, bind_ok]
  congr 1
  funext b
  exact Finset.sum_congr rfl (fun s hs => h2 s (Finset.mem_range.1 hs) b)

theorem tot_inv {m : Mdl n P} {A : Arrays} {x : Fin n → ℝ} {θ : Fin P → ℝ} {N}
    (h : m.totBinExp A x θ = .ok N) :
    ∃ vals, m.ctx.realVals x = .ok vals ∧ m.Computable vals ∧ N = m.totAt A vals θ := by
  have h' := h
  simp only [totBinExp] at h'
  obtain ⟨ne, hne, _⟩ := bind_eq_ok.1 h'
  obtain ⟨vals, hv, hc⟩ := nExp_inv hne
  refine ⟨vals, hv, hc, ?_⟩
  rw [tot_ok A θ hv hc] at h
  exact (Except.ok.inj h).symm

/-! ### Value of the NLL -/

theorem poissonTerm_fin {N c : ℝ} (h : 0 < N) : poissonTerm N c = .fin (N - c * Real.log N) := by
  simp [poissonTerm, Flt.log, h, Flt.smul, Flt.neg, Flt.add, sub_eq_add_neg]

theorem poissonTermOff_fin {N N0 c : ℝ} (h : 0 < N) (h0 : 0 < N0) :
    poissonTermOff N N0 c = .fin (N - N0 - c * Real.log (N / N0)) := by
  simp [poissonTermOff, Flt.div, h0.ne', Flt.log, div_pos h h0, Flt.smul, Flt.neg, Flt.add,
    sub_eq_add_neg]

/-- The finite value of the NLL without offset. -/
noncomputable def nllVal (m : Mdl n P) (N : Nat → ℝ) (θ : Fin P → ℝ) (d : DataV P) (nc : Bool) : ℝ :=
  (∑ b ∈ Finset.range m.nbinsPoisson, (N b - d.counts b * Real.log (N b))) +
  m.quad (fun i => N (m.nbinsPoisson + i) - d.counts (m.nbinsPoisson + i))
    (fun i => N (m.nbinsPoisson + i) - d.counts (m.nbinsPoisson + i)) +
  (if nc then 0 else m.constraintTerm θ d)

/-- The finite value of the NLL with offset. -/
noncomputable def nllValOff (m : Mdl n P) (N N0 : Nat → ℝ) (θ : Fin P → ℝ) (d : DataV P) (nc : Bool) :
    ℝ :=
  (∑ b ∈ Finset.range m.nbinsPoisson, (N b - N0 b - d.counts b * Real.log (N b / N0 b))) +
  m.quad (fun i => N (m.nbinsPoisson + i) - d.counts (m.nbinsPoisson + i) + N0 (m.nbinsPoisson + i))
    (fun i => N (m.nbinsPoisson + i) - d.counts (m.nbinsPoisson + i) - N0 (m.nbinsPoisson + i)) +
  (if nc then 0 else m.constraintTerm θ d)

theorem nll_ok {m : Mdl n P} {A : Arrays} {x : Fin n → ℝ} {θ : Fin P → ℝ} {d : DataV P} {fl nc N}
    (h : m.totBinExp A x θ fl = .ok N) (hp : ∀ b < m.nbinsPoisson, 0 < N b) :
    m.nll A x θ d false fl nc = .ok (.fin (m.nllVal N θ d nc)) := by
  simp only [nll, h, bind_ok, Bool.not_false, if_true, pure_ok]
  rw [Flt.sum_congr _ _ (fun b => N b - d.counts b * Real.log (N b))
    (fun b hb => poissonTerm_fin (hp b (List.mem_range.1 hb))), list_range_sum]
  cases nc <;> simp [Flt.add, Flt.nanToInf, nllVal]

theorem nll_off_ok {m : Mdl n P} {A : Arrays} {x : Fin n → ℝ} {θ : Fin P → ℝ} {d : DataV P} {fl nc N N0}
    (h : m.totBinExp A x θ fl = .ok N) (hp : ∀ b < m.nbinsPoisson, 0 < N b)
    (h0 : m.refTot A = .ok N0) (hp0 : ∀ b < m.nbinsPoisson, 0 < N0 b) :
    m.nll A x θ d true fl nc = .ok (.fin (m.nllValOff N N0 θ d nc)) := by
  simp only [nll, h, h0, bind_ok, Bool.not_true, Bool.false_eq_true, if_false, pure_ok]
  rw [Flt.sum_congr _ _ (fun b => N b - N0 b - d.counts b * Real.log (N b / N0 b))
    (fun b hb => poissonTermOff_fin (hp b (List.mem_range.1 hb)) (hp0 b (List.mem_range.1 hb))),
    list_range_sum]
  cases nc <;> simp [Flt.add, Flt.nanToInf, nllValOff]

end Mdl
end Verif
