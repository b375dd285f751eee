import Verif.Lemmas.Impact
import Verif.Lemmas.Demo
import Mathlib.Analysis.SpecialFunctions.Trigonometric.DerivHyp
/-! Lemmas about correction factors, yields and channel offsets. -/
namespace Verif

theorem tanh_strictMono : StrictMono Real.tanh := by
  have e : ∀ x : ℝ, Real.tanh x = 1 - 2 / (Real.exp (2 * x) + 1) := by
    intro x
    rw [Real.tanh_eq, two_mul, Real.exp_add, Real.exp_neg]
    have := Real.exp_pos x
    field_simp
    ring
  intro x y h
  rw [e, e]
  have h1 : Real.exp (2 * x) < Real.exp (2 * y) := Real.exp_lt_exp.2 (by linarith)
  have h2 := Real.exp_pos (2 * x)
  have : 2 / (Real.exp (2 * y) + 1) < 2 / (Real.exp (2 * x) + 1) :=
    div_lt_div_of_pos_left (by norm_num) (by linarith) (by linarith)
  linarith

namespace Mdl
variable {n P : Nat}

theorem kExp_zero (m : Mdl n P) (A : Arrays) (s b : Nat) : m.kExp A 0 s b = 1 := by
  have hd : m.delta A 0 s b = 0 := by simp [delta]
  unfold kExp
  split_ifs <;> simp [hd]

theorem cutKExp_zero (m : Mdl n P) (A : Arrays) (s b : Nat) : m.cutKExp A 0 s b = 1 := by
  unfold cutKExp
  split_ifs <;> simp [kExp_zero]

/-- All samples have the number of bins of their channel (checked at load, core.py:1255). -/
def YieldsShaped (m : Mdl n P) : Prop :=
  ∀ ch ∈ m.channels, ∀ smp ∈ ch.samples, smp.nominal_yields.length = ch.nbins

theorem cells_part_length {l : List Channel} (h : ∀ ch ∈ l, ∀ smp ∈ ch.samples,
    smp.nominal_yields.length = ch.nbins) (s : Nat) :
    (l.flatMap fun ch => ch.cells s).length = (l.map (·.nbins)).sum := by
  induction l with
  | nil => rfl
  | cons a l ih =>
    rw [List.flatMap_cons, List.length_append, ih (fun ch hc => h ch (by simp [hc])), List.map_cons,
      List.sum_cons]
    congr 1
    unfold Channel.cells
    cases hs : a.samples[s]? with
    | none => simp
    | some smp => simp [h a (by simp) smp (List.mem_of_getElem? hs)]

theorem shapeOk_of_yieldsShaped {m : Mdl n P} (h : m.YieldsShaped) : m.ShapeOk := by
  intro s _
  rw [nbins_eq_sum]
  exact cells_part_length h s

theorem cells_mid {m : Mdl n P} (hsh : m.YieldsShaped) {pre post : List Channel} {ch : Channel}
    (hch : m.channels = pre ++ ch :: post) {s : Nat} {smp : Sample} (hs : ch.samples[s]? = some smp)
    {b : Nat} (hb : b < ch.nbins) :
    (m.cells s).getD ((pre.map (·.nbins)).sum + b) none = some (smp, smp.nominal_yields.getD b 0) := by
  unfold cells
  rw [hch, List.flatMap_append, List.flatMap_cons]
  have hl := cells_part_length (l := pre) (fun c hc => hsh c (by rw [hch]; simp [hc])) s
  have hlen : smp.nominal_yields.length = ch.nbins :=
    hsh ch (by rw [hch]; simp) smp (List.mem_of_getElem? hs)
  rw [List.getD_append_right _ _ _ _ (by rw [hl]; omega), hl, Nat.add_sub_cancel_left]
  simp only [Channel.cells, hs]
  rw [List.getD_append _ _ _ _ (by simpa [hlen] using hb),
    List.getD_eq_getElem (List.map _ _) _ (by simpa [hlen] using hb), List.getElem_map,
    List.getD_eq_getElem _ _ (by omega)]

/-- The yield of a sample in a bin of its channel. -/
theorem nExp_at {m : Mdl n P} (hsh : m.YieldsShaped) {A : Arrays} {x : Fin n → ℝ} {θ : Fin P → ℝ}
    {ne vals} (h : m.nExp A x θ = .ok ne) (hv : m.ctx.realVals x = .ok vals)
    {pre post : List Channel} {ch : Channel} (hch : m.channels = pre ++ ch :: post) {s : Nat}
    {smp : Sample} (hs : ch.samples[s]? = some smp) {b : Nat} (hb : b < ch.nbins) {v : ℝ}
    (hnv : smp.norm.value vals = .ok v) :
    ne s ((pre.map (·.nbins)).sum + b) = v / smp.nominal_norm * smp.nominal_yields.getD b 0 *
      m.cutKExp A θ s ((pre.map (·.nbins)).sum + b) := by
  obtain ⟨vals', hv', hc⟩ := nExp_inv h
  rw [hv] at hv'
  obtain rfl := Except.ok.inj hv'
  obtain ⟨ne', h1, h2⟩ := nExp_ok A θ hv hc
  rw [h] at h1
  obtain rfl := Except.ok.inj h1
  have hlt : s < m.maxSamples := lt_of_lt_of_le (List.getElem?_eq_some_iff.1 hs).1
    (m.samples_le (by rw [hch]; simp))
  rw [h2 s hlt, yieldAt, cells_mid hsh hch hs hb]
  simp only [cellVal, Option.elim, cellYield, norm_value_ok hnv]

/-! ### Offsets -/

theorem offsets_foldl (nP : Nat) (l : List Channel) (st : ChanState)
    (hn : (l.map (·.name)).Nodup) :
    (∀ nm, nm ∉ l.map (·.name) → (l.foldl (chanStep nP) st).offsets.get? nm = st.offsets.get? nm) ∧
    ∀ pre ch post, l = pre ++ ch :: post →
      (l.foldl (chanStep nP) st).offsets.get? ch.name = some (st.nbins + (pre.map (·.nbins)).sum) := by
  induction l generalizing st with
  | nil => simp
  | cons a l ih =>
    simp only [List.map_cons, List.nodup_cons] at hn
    obtain ⟨i1, i2⟩ := ih (chanStep nP st a) hn.2
    refine ⟨fun nm hnm => ?_, fun pre ch post he => ?_⟩
    · simp only [List.map_cons, List.mem_cons, not_or] at hnm
      rw [List.foldl_cons, i1 nm hnm.2]
      simp only [chanStep]
      exact Dict.get?_set_ne _ _ (Ne.symm hnm.1)
    · rw [List.foldl_cons]
      cases pre with
      | nil =>
        simp only [List.nil_append, List.cons.injEq] at he
        obtain ⟨rfl, rfl⟩ := he
        rw [i1 _ hn.1]
        simp [chanStep, Dict.get?_set_self]
      | cons c pre =>
        simp only [List.cons_append, List.cons.injEq] at he
        obtain ⟨rfl, rfl⟩ := he
        rw [i2 pre ch post rfl]
        simp [chanStep, Nat.add_assoc]

theorem offset_eq {m : Mdl n P} (hn : (m.channels.map (·.name)).Nodup) {pre post : List Channel}
    {ch : Channel} (hch : m.channels = pre ++ ch :: post) :
    m.offsets.get? ch.name = some ((pre.map (·.nbins)).sum) := by
  have := (offsets_foldl m.nbinsPoisson m.channels ⟨0, 0, [], fun _ _ => 0⟩ hn).2 pre ch post hch
  rw [Nat.zero_add] at this
  exact this

theorem find_channel {m : Mdl n P} (hn : (m.channels.map (·.name)).Nodup) {ch : Channel}
    (hch : ch ∈ m.channels) : m.channels.find? (fun c => c.name == ch.name) = some ch := by
  revert hn hch
  induction m.channels with
  | nil => intro _ h; cases h
  | cons a l ih =>
    intro hn h
    simp only [List.map_cons, List.nodup_cons] at hn
    by_cases ha : a.name = ch.name
    · rw [List.find?_cons_of_pos (by simpa using ha)]
      rcases List.mem_cons.1 h with rfl | h
      · rfl
      · exact absurd (ha ▸ List.mem_map.2 ⟨ch, h, rfl⟩) hn.1
    · rw [List.find?_cons_of_neg (by simpa using ha)]
      rcases List.mem_cons.1 h with rfl | h
      · exact absurd rfl ha
      · exact ih hn.2 h

end Mdl

/-- The loop adding implicit impacts. -/
theorem implicit_foldlM {nm : Norm} {reals : Dict Expr} {vals : Dict ℝ} {fuel : Nat}
    (l : List (NP ℝ)) (imps r : Dict Impact)
    (h : l.foldlM (fun (imps : Dict Impact) par =>
      match imps.get? par.name with
      | some _ => pure imps
      | none => do
        match ← nm.implicitImpact par reals vals fuel with
        | none => pure imps
        | some i => pure (imps.set par.name i)) imps = .ok r) :
    (∀ k i, imps.get? k = some i → r.get? k = some i) ∧
    ∀ par ∈ l, (l.map (·.name)).Nodup → imps.get? par.name = none →
      ∀ i, nm.implicitImpact par reals vals fuel = .ok (some i) → r.get? par.name = some i := by
  induction l generalizing imps with
  | nil =>
    simp only [List.foldlM_nil, pure_ok] at h
    obtain rfl := Except.ok.inj h
    exact ⟨fun _ _ h => h, fun par hp => by cases hp⟩
  | cons a l ih =>
    rw [List.foldlM_cons] at h
    obtain ⟨b, hb, h⟩ := bind_eq_ok.1 h
    obtain ⟨i1, i2⟩ := ih b h
    have hstep : (∀ k i, imps.get? k = some i → b.get? k = some i) ∧
        (∀ k, k ≠ a.name → b.get? k = imps.get? k) ∧
        (imps.get? a.name = none → ∀ i, nm.implicitImpact a reals vals fuel = .ok (some i) →
          b.get? a.name = some i) := by
      cases hg : imps.get? a.name with
      | some j =>
        simp only [hg, pure_ok] at hb
        obtain rfl := Except.ok.inj hb
        exact ⟨fun _ _ h => h, fun _ _ => rfl, fun h => by cases h⟩
      | none =>
        simp only [hg] at hb
        obtain ⟨o, ho, hb⟩ := bind_eq_ok.1 hb
        cases o with
        | none =>
          simp only [pure_ok] at hb
          obtain rfl := Except.ok.inj hb
          exact ⟨fun _ _ h => h, fun _ _ => rfl, fun _ i hi => by rw [ho] at hi; cases hi⟩
        | some j =>
          simp only [pure_ok] at hb
          obtain rfl := Except.ok.inj hb
          refine ⟨fun k i hk => ?_, fun k hk => Dict.get?_set_ne _ _ (Ne.symm hk), fun _ i hi => ?_⟩
          · rw [Dict.get?_set_ne _ _ (by rintro rfl; rw [hg] at hk; cases hk)]; exact hk
          · rw [ho] at hi
            rw [Dict.get?_set_self]
            exact Except.ok.inj hi
    refine ⟨fun k i hk => i1 k i (hstep.1 k i hk), fun par hp hn hnone i hi => ?_⟩
    simp only [List.map_cons, List.nodup_cons] at hn
    rcases List.mem_cons.1 hp with rfl | hp
    · exact i1 _ _ (hstep.2.2 hnone i hi)
    · have : par.name ≠ a.name := fun e => hn.1 (e ▸ List.mem_map.2 ⟨par, hp, rfl⟩)
      exact i2 par hp hn.2 (by rw [hstep.2.1 _ this]; exact hnone) i hi

theorem RawSample.setNpData_inv {rs : RawSample} {nps : List (NP ℝ)} {reals : Dict Expr} {vals : Dict ℝ}
    {fuel : Nat} {smp : Sample} (h : rs.setNpData nps reals vals fuel = .ok smp) :
    smp.norm = rs.norm ∧ ((∀ k i, rs.impacts.get? k = some i → smp.impacts.get? k = some i) ∧
    ∀ par ∈ nps, (nps.map (·.name)).Nodup → rs.impacts.get? par.name = none →
      ∀ i, rs.norm.implicitImpact par reals vals fuel = .ok (some i) →
        smp.impacts.get? par.name = some i) := by
  unfold RawSample.setNpData at h
  obtain ⟨imps, hi, h⟩ := bind_eq_ok.1 h
  obtain rfl := Except.ok.inj h
  exact ⟨rfl, implicit_foldlM nps rs.impacts imps hi⟩

namespace Mdl
variable {n P : Nat}

theorem np_mem_keys (m : Mdl n P) (p : Fin P) : (m.nps p).name ∈ Dict.keys m.ctx.nps := by
  simp only [ctx, Dict.keys_ofFn]
  exact List.mem_ofFn.2 ⟨p, rfl⟩

theorem np_names_nodup {m : Mdl n P} (hD : m.ctx.Distinct) :
    ((List.ofFn m.nps).map (·.name)).Nodup := by
  have h := (List.nodup_append.1 (List.nodup_append.1 hD).1).2.1
  simp only [ctx, Dict.keys_ofFn] at h
  simpa [List.map_ofFn, Function.comp_def] using h

theorem np_value {m : Mdl n P} (hD : m.ctx.Distinct) (p : Fin P) {x : Fin n → ℝ} {vals : Dict ℝ}
    (h : m.ctx.realVals x = .ok vals) : vals.get? (m.nps p).name = some (m.nps p).nominal_value := by
  have hk := m.np_mem_keys p
  have hb : (m.nps p).name ∉ List.ofFn m.ctx.pois := by
    intro hm
    obtain ⟨i, hi⟩ := List.mem_ofFn.1 hm
    exact hD.np_ne i (hi ▸ hk)
  have h1 := (ExprCtx.evalLoop_keys m.ctx.exprs (m.ctx.base x) vals
    (by rw [ExprCtx.base_keys]; exact hD) h).2 (m.nps p).name
    (by rw [ExprCtx.base_keys]; exact List.mem_append_right _ hk)
  rw [h1, ExprCtx.base_get_np _ _ _ hb]
  have hinj : Function.Injective (fun p => (m.nps p).name) := by
    have := np_names_nodup hD
    rw [List.map_ofFn] at this
    exact List.nodup_ofFn.1 this
  simp only [ctx]
  exact Dict.get?_ofFn (fun p => (m.nps p).name) (fun p => (m.nps p).nominal_value) hinj p

theorem implicit_np {m : Mdl n P} (hD : m.ctx.Distinct) (p : Fin P)
    (hnom : (m.nps p).nominal_value ≠ 0) {rs : RawSample} {smp : Sample}
    (hnorm : rs.norm = .expr (m.nps p).name) (himp : rs.impacts.get? (m.nps p).name = none)
    {vals : Dict ℝ} (hset : rs.setNpData (List.ofFn m.nps) m.ctx.reals vals m.fuel = .ok smp) :
    smp.impacts.get? (m.nps p).name = some (.common [
      (.num 1, (m.nps p).variation / (m.nps p).nominal_value),
      (.num (-1), -((m.nps p).variation / (m.nps p).nominal_value))]) := by
  refine (RawSample.setNpData_inv hset).2.2 (m.nps p) (List.mem_ofFn.2 ⟨p, rfl⟩) (np_names_nodup hD) himp _ ?_
  rw [hnorm]
  have hr := ExprCtx.reals_get_base (c := m.ctx) (m.nps p).name (.inr (m.np_mem_keys p))
  simp only [Norm.implicitImpact, if_pos hnom, fuel, Expr.gradient, Dict.getItem, hr, bind_ok,
    Expr.gradStep, if_true, pure_ok, mul_one, one_mul]

/-- The factor along one NP with opposite relative variations `±r`. -/
theorem kExp_single_linear {m : Mdl n P} (hu : m.Uniform 1)
    (ha : m.use_asym_impacts = true) (hl : m.use_linear_nps = true) (hvar : m.variations = none)
    {A : Arrays} (hA : m.setInternal = .ok A) {pre post : List Channel} {ch : Channel}
    (hch : m.channels = pre ++ ch :: post) {s : Nat} {smp : Sample} (hs : ch.samples[s]? = some smp)
    {b : Nat} (hb : b < ch.nbins) {p : Fin P} {r : ℝ}
    (hi : smp.impacts.get? (m.nps p).name = some (.common [(.num 1, r), (.num (-1), -r)])) (t : ℝ) :
    m.kExp A (Pi.single p t) s ((pre.map (·.nbins)).sum + b) = 1 + t * r := by
  obtain ⟨c, hc, hnv, hval⟩ := setInternal_coeffs hu ha hA hch hs p
  obtain ⟨hsh, hu2⟩ := hu ch (by rw [hch]; simp) smp (List.mem_of_getElem? hs)
  obtain ⟨_, _, _, _, _, hpos, hneg⟩ := Sample.impactCoefficients_spec hsh (hu2 p).1 (hu2 p).2 hc
  have hav : smp.availableVariations (m.nps p).name = [1, -1] := by
    simp [Sample.availableVariations, hi, VarKey.toReal]
  have hbl : b < smp.nominal_yields.length := by rw [hsh.1]; exact hb
  obtain ⟨r1, h1, e1⟩ := hpos 1 (by
    simp only [Sample.posVars, hvar, hav, Demo.vars_one_neg.1]; simp) one_ne_zero
  obtain ⟨r2, h2, e2⟩ := hneg (-1) (by
    simp only [Sample.negVars, hvar, hav, Demo.vars_one_neg.2]; simp) (by norm_num)
  have i1 : smp.impact (m.nps p).name 1 = .ok (List.replicate smp.nominal_yields.length r) := by
    simp [Sample.impact, hi, lookupVar]
  have i2 : smp.impact (m.nps p).name (-1) = .ok (List.replicate smp.nominal_yields.length (-r)) := by
    have : (1 : ℝ) ≠ -1 := by norm_num
    simp [Sample.impact, hi, lookupVar, this]
  rw [i1] at h1
  rw [i2] at h2
  obtain rfl := Except.ok.inj h1
  obtain rfl := Except.ok.inj h2
  have f1 := e1 b hb
  have f2 := e2 b hb
  have gd : ∀ y : ℝ, (List.replicate smp.nominal_yields.length y).getD b 0 = y := fun y => by
    rw [List.getD_eq_getElem _ _ (by simpa using hbl)]; simp
  simp only [Finset.sum_range_one, gd, Sample.impactVal, hl, Bool.not_true, Bool.false_eq_true, if_false,
    zero_add, pow_one, mul_one, mul_neg, neg_inj] at f1 f2
  have hv := hval b hb 0 one_pos
  rw [f1, f2] at hv
  have hz : ∀ (f : Nat → ℝ), ∑ v ∈ Finset.range 1, f v * (0 : ℝ) ^ (v + 1) = 0 := fun f => by simp
  have d1 : ∀ (g : Fin P → ℝ) (F : ℝ → ℝ), F 0 = 0 → (∑ q : Fin P, g q * F ((Pi.single p t : Fin P → ℝ) q)) = g p * F t := by
    intro g F h0
    rw [Finset.sum_eq_single p]
    · simp
    · intro q _ hq; simp [hq, h0]
    · simp
  simp only [kExp, ha, if_true, hl, delta, hnv, Finset.sum_range_one, zero_add, pow_one]
  rw [d1 (fun q => A.posAt m.nbins P s ((pre.map (·.nbins)).sum + b) q 0) (fun y => max y 0) (by simp),
    d1 (fun q => A.negAt m.nbins P s ((pre.map (·.nbins)).sum + b) q 0) (fun y => min y 0) (by simp),
    hv.1, hv.2, ← mul_add, max_add_min, add_zero, mul_comm]

end Mdl
end Verif
