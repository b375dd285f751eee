import Verif.Lemmas.MoreData
import Verif.Props.AddChannels
/-!
# C95: more data, more sensitivity
-/
namespace Verif.Props
open Verif Mdl Verif.Spec
variable {n P : Nat} {m : Mdl n P} {A : Arrays}

/-- **C95** Multiplying all nominal yields of a model by `k` multiplies its predictions by `k`, for all POIs and NPs,
and so its Asimov datasets. -/
theorem c95_predictions (k : ℝ) (hvar : m.variations = none)
    (hs : ∀ ch ∈ m.channels, 0 < ch.nbins ∧ ∀ s ∈ ch.samples, s.Std ch.nbins)
    (hn : (m.channels.map (·.name)).Nodup) (hA : m.setInternal = .ok A) :
    ∃ A', (m.times k).setInternal = .ok A' ∧
      (∀ x θ N, m.totBinExp A x θ = .ok N →
        ∃ N', (m.times k).totBinExp A' x θ = .ok N' ∧ ∀ b < m.nbins, N' b = k * N b) ∧
      ∀ x θ d, m.generateAsimov A x θ = .ok d → ∃ d', (m.times k).generateAsimov A' x θ = .ok d' ∧
        d'.aux_obs = d.aux_obs ∧ ∀ b < m.nbins, d'.counts b = k * d.counts b := by
  obtain ⟨A', hA'⟩ := times_set k hvar hs (setInternal_order hn hA)
  have h : ∀ x θ N, m.totBinExp A x θ = .ok N →
      ∃ N', (m.times k).totBinExp A' x θ = .ok N' ∧ ∀ b < m.nbins, N' b = k * N b := by
    intro x θ N hN
    obtain ⟨N', h1, h2⟩ := times_tot k hvar hs hA hA' hN
    exact ⟨N', h1, fun b hb => h2 b (by rwa [nbins_eq_sum] at hb)⟩
  refine ⟨A', hA', h, fun x θ d hd => ?_⟩
  simp only [Mdl.generateAsimov] at hd
  obtain ⟨C, hC, hd⟩ := bind_eq_ok.1 hd
  obtain rfl := Except.ok.inj (ε := PyErr) hd
  obtain ⟨C', hC', hCC⟩ := h _ _ _ hC
  exact ⟨⟨C', θ⟩, by simp only [Mdl.generateAsimov, hC', bind_ok]; rfl, rfl, hCC⟩

/-- **C95** With `k` at least 1, moving the parameters away from those for which the Asimov datasets were generated
raises the NLL at least as much as before, for all parameters where it is finite. -/
theorem c95_increments {k : ℝ} (hk : 1 ≤ k) (hvar : m.variations = none)
    (hs : ∀ ch ∈ m.channels, 0 < ch.nbins ∧ ∀ s ∈ ch.samples, s.Std ch.nbins)
    (hn : (m.channels.map (·.name)).Nodup) (hA : m.setInternal = .ok A)
    (hH : ∀ ch ∈ m.channels, HessOk ch) {R : Nat → ℝ}
    (hR : m.refTot A = .ok R) (hR0 : ∀ b < m.nbinsPoisson, 0 < R b)
    {x₀ : Fin n → ℝ} {θ₀ : Fin P → ℝ} {d : DataV P} (hd : m.generateAsimov A x₀ θ₀ = .ok d)
    (hc : ∀ b < m.nbinsPoisson, 0 < d.counts b) {A' : Arrays} (hA' : (m.times k).setInternal = .ok A')
    {d' : DataV P} (hd' : (m.times k).generateAsimov A' x₀ θ₀ = .ok d') (offset nc : Bool) :
    ∃ v₀ w₀, m.nll A x₀ θ₀ d offset none nc = .ok (.fin v₀) ∧
      (m.times k).nll A' x₀ θ₀ d' offset none nc = .ok (.fin w₀) ∧
      ∀ x θ v, m.nll A x θ d offset none nc = .ok (.fin v) →
        ∃ w, (m.times k).nll A' x θ d' offset none nc = .ok (.fin w) ∧ 0 ≤ v - v₀ ∧ v - v₀ ≤ w - w₀ := by
  have hk0 : 0 < k := by linarith
  have ho := setInternal_order hn hA
  have ho' : PoissonFirst (m.times k).channels := times_order k ho
  simp only [Mdl.generateAsimov] at hd hd'
  obtain ⟨C, hC, hd⟩ := bind_eq_ok.1 hd
  obtain ⟨C', hC', hd'⟩ := bind_eq_ok.1 hd'
  obtain rfl := Except.ok.inj (ε := PyErr) hd
  obtain rfl := Except.ok.inj (ε := PyErr) hd'
  obtain ⟨C1, e1, hCC⟩ := times_tot k hvar hs hA hA' hC
  rw [hC'] at e1
  obtain rfl := Except.ok.inj (ε := PyErr) e1
  obtain ⟨R', hR', hRR⟩ := times_tot k hvar hs hA hA' (x := m.poiInit) (θ := 0) hR
  have hcP : OnPoisson m.channels fun b => 0 < C b := (onPoisson_iff ho _).2 hc
  have hRP : OnPoisson m.channels fun b => 0 < R b := (onPoisson_iff ho _).2 hR0
  have whole : ∀ {x θ N}, m.totBinExp A x θ = .ok N → (OnPoisson m.channels fun b => 0 < N b) →
      m.nll A x θ ⟨C, θ₀⟩ offset none nc = .ok (.fin (chanTerms m.channels offset N R C +
        if nc then 0 else m.constraintTerm θ ⟨C, θ₀⟩)) := fun hN hp =>
    nll_blocks ho hN hR _ offset none nc hp fun _ => hRP
  have lift : ∀ {M M' : Nat → ℝ}, (OnPoisson m.channels fun b => 0 < M b) →
      (∀ b < binsOf m.channels, M' b = k * M b) → OnPoisson (m.times k).channels fun b => 0 < M' b := by
    intro M M' hM h
    refine (onPoisson_iff ho' fun b => 0 < M' b).2 fun b hb => ?_
    have e : (m.times k).nbinsPoisson = m.nbinsPoisson := by
      simp only [nbinsPoisson, times, List.filter_map, List.map_map]
      rfl
    rw [e] at hb
    have hlt : b < binsOf m.channels := by
      rw [poisson_split ho, binsOf_append]
      have : m.nbinsPoisson = binsOf (m.channels.filter fun c => !c.gaussian) := rfl
      omega
    rw [h b hlt]
    exact mul_pos hk0 ((onPoisson_iff ho fun b => 0 < M b).1 hM b hb)
  have more : ∀ {x θ} {N N' : Nat → ℝ}, (OnPoisson m.channels fun b => 0 < N b) →
      (m.times k).totBinExp A' x θ = .ok N' → (∀ b < binsOf m.channels, N' b = k * N b) →
      (m.times k).nll A' x θ ⟨C', θ₀⟩ offset none nc =
        .ok (.fin (chanTerms m.channels offset (fun b => k * N b) (fun b => k * R b) (fun b => k * C b) +
        if nc then 0 else m.constraintTerm θ ⟨C, θ₀⟩)) := by
    intro x θ N N' hp hN' hNN
    have h1 := nll_blocks ho' hN' hR' ⟨C', θ₀⟩ offset none nc (lift hp hNN) fun _ => lift hRP hRR
    have h2 := chanTerms_congr m.channels offset hNN hRR hCC
    rw [← chanTerms_times k] at h2
    rw [← h2]
    exact h1
  refine ⟨_, _, whole hC hcP, more hcP hC' hCC, fun x θ v hv => ?_⟩
  obtain ⟨N, hN, hNp⟩ := pos_of_nll hc hR hR0 hv
  have hNP : OnPoisson m.channels fun b => 0 < N b := (onPoisson_iff ho _).2 hNp
  obtain ⟨N', hN', hNN⟩ := times_tot k hvar hs hA hA' hN
  rw [whole hN hNP] at hv
  have hv := Except.ok.inj (ε := PyErr) hv
  injection hv with hv
  subst hv
  refine ⟨_, more hNP hN' hNN, ?_⟩
  have k1 := chanTerms_min m.channels offset N R C hH hNP hcP fun _ => hRP
  have k2 := chanTerms_more hk m.channels offset N R C hH hNP hcP fun _ => hRP
  have k3 := m.constraintTerm_nonneg θ ⟨C, θ₀⟩
  rw [constraint_zero]
  cases nc
  · simp only [Bool.false_eq_true, if_false]
    constructor <;> linarith
  · simp only [if_true]
    constructor <;> linarith

/-- The NLL is finite with `k` times the data only where it is finite before. -/
theorem times_finite {k : ℝ} (hk : 1 ≤ k) (hvar : m.variations = none)
    (hs : ∀ ch ∈ m.channels, 0 < ch.nbins ∧ ∀ s ∈ ch.samples, s.Std ch.nbins)
    (hn : (m.channels.map (·.name)).Nodup) (hA : m.setInternal = .ok A) {R : Nat → ℝ}
    (hR : m.refTot A = .ok R) (hR0 : ∀ b < m.nbinsPoisson, 0 < R b)
    {x₀ : Fin n → ℝ} {θ₀ : Fin P → ℝ} {d : DataV P} (hd : m.generateAsimov A x₀ θ₀ = .ok d)
    (hc : ∀ b < m.nbinsPoisson, 0 < d.counts b) {A' : Arrays} (hA' : (m.times k).setInternal = .ok A')
    {d' : DataV P} (hd' : (m.times k).generateAsimov A' x₀ θ₀ = .ok d') {x : Fin n → ℝ} {θ : Fin P → ℝ} {w : ℝ}
    (hw : (m.times k).nll A' x θ d' = .ok (.fin w)) : ∃ v, m.nll A x θ d = .ok (.fin v) := by
  have hk0 : 0 < k := by linarith
  have ho := setInternal_order hn hA
  have e : (m.times k).nbinsPoisson = m.nbinsPoisson := by
    simp only [nbinsPoisson, times, List.filter_map, List.map_map]
    rfl
  have hlt : ∀ b < m.nbinsPoisson, b < binsOf m.channels := by
    intro b hb
    rw [poisson_split ho, binsOf_append]
    have : m.nbinsPoisson = binsOf (m.channels.filter fun c => !c.gaussian) := rfl
    omega
  simp only [Mdl.generateAsimov] at hd hd'
  obtain ⟨C, hC, hd⟩ := bind_eq_ok.1 hd
  obtain ⟨C', hC', hd'⟩ := bind_eq_ok.1 hd'
  obtain rfl := Except.ok.inj (ε := PyErr) hd
  obtain rfl := Except.ok.inj (ε := PyErr) hd'
  obtain ⟨C1, e1, hCC⟩ := times_tot k hvar hs hA hA' hC
  rw [hC'] at e1
  obtain rfl := Except.ok.inj (ε := PyErr) e1
  obtain ⟨R', hR', hRR⟩ := times_tot k hvar hs hA hA' (x := m.poiInit) (θ := 0) hR
  obtain ⟨N', hN', hNp⟩ := pos_of_nll (m := m.times k) (d := ⟨C', θ₀⟩)
    (fun b hb => by
      rw [e] at hb
      show 0 < C' b
      rw [hCC b (hlt b hb)]; exact mul_pos hk0 (hc b hb)) hR'
    (fun b hb => by rw [e] at hb; rw [hRR b (hlt b hb)]; exact mul_pos hk0 (hR0 b hb)) hw
  obtain ⟨vals, hv, hcomp, -⟩ := tot_inv hN'
  have hv1 : m.ctx.realVals x = .ok vals := hv
  have hc1 : m.Computable vals := by
    obtain ⟨vals0, _, h2, -⟩ := tot_inv hC
    refine ⟨h2.shape, h2.norm0, fun ch h s hm => ?_⟩
    exact hcomp.value (ch.times k) (List.mem_map.2 ⟨ch, h, rfl⟩)
      { s with nominal_yields := s.nominal_yields.map fun y => k * y } (List.mem_map.2 ⟨s, hm, rfl⟩)
  have hN := tot_ok A θ hv1 hc1
  obtain ⟨N1, e2, hNN⟩ := times_tot k hvar hs hA hA' hN
  rw [hN'] at e2
  obtain rfl := Except.ok.inj (ε := PyErr) e2
  refine ⟨_, nll_off_ok hN (fun b hb => ?_) hR hR0⟩
  have := hNp b (by rw [e]; exact hb)
  rw [hNN b (hlt b hb)] at this
  exact (mul_pos_iff_of_pos_left hk0).1 this

/-- **C95** So more data with the same composition never reduce the exact profile likelihood ratio of a hypothesis on
Asimov data, in fits in which the generating POIs are allowed. -/
theorem c95_ratio {k : ℝ} (hk : 1 ≤ k) (hvar : m.variations = none)
    (hs : ∀ ch ∈ m.channels, 0 < ch.nbins ∧ ∀ s ∈ ch.samples, s.Std ch.nbins)
    (hn : (m.channels.map (·.name)).Nodup) (hA : m.setInternal = .ok A)
    (hH : ∀ ch ∈ m.channels, HessOk ch) {R : Nat → ℝ}
    (hR : m.refTot A = .ok R) (hR0 : ∀ b < m.nbinsPoisson, 0 < R b)
    {x₀ : Fin n → ℝ} {θ₀ : Fin P → ℝ} {d : DataV P} (hd : m.generateAsimov A x₀ θ₀ = .ok d)
    (hc : ∀ b < m.nbinsPoisson, 0 < d.counts b) {A' : Arrays} (hA' : (m.times k).setInternal = .ok A')
    {d' : DataV P} (hd' : (m.times k).generateAsimov A' x₀ θ₀ = .ok d')
    {H F : (Fin n → ℝ) → Prop} (hF : F x₀) {a b a' b' : ℝ}
    (ha : IsLeast (nllsWhere m A d H) a) (hb : IsLeast (nllsWhere m A d F) b)
    (ha' : IsLeast (nllsWhere (m.times k) A' d' H) a')
    (hb' : IsLeast (nllsWhere (m.times k) A' d' F) b') :
    0 ≤ 2 * (a - b) ∧ 2 * (a - b) ≤ 2 * (a' - b') := by
  obtain ⟨v₀, w₀, hv₀, hw₀, hinc⟩ := c95_increments hk hvar hs hn hA hH hR hR0 hd hc hA' hd' true false
  obtain ⟨x1, θ1, hx1, ea⟩ := ha.1
  obtain ⟨xb, θb, hxb, eb⟩ := hb.1
  obtain ⟨x', θ', hx', ea'⟩ := ha'.1
  obtain ⟨v, hv⟩ := times_finite hk hvar hs hn hA hR hR0 hd hc hA' hd' ea'
  obtain ⟨w, k1, k2, k3⟩ := hinc x' θ' v hv
  have k1 : (m.times k).nll A' x' θ' d' = .ok (.fin w) := k1
  rw [ea'] at k1
  have k1 := Except.ok.inj (ε := PyErr) k1
  injection k1 with k1
  obtain ⟨_, _, l2, -⟩ := hinc x1 θ1 a ea
  obtain ⟨_, _, l3, -⟩ := hinc xb θb b eb
  have t1 : b ≤ v₀ := hb.2 ⟨x₀, θ₀, hF, hv₀⟩
  have t2 : b' ≤ w₀ := hb'.2 ⟨x₀, θ₀, hF, hw₀⟩
  have t3 : a ≤ v := ha.2 ⟨x', θ', hx', hv⟩
  constructor <;> linarith

/-- **C95** Nor raise its asymptotic p-value. -/
theorem c95_pvalue {k : ℝ} (hk : 1 ≤ k) (hvar : m.variations = none)
    (hs : ∀ ch ∈ m.channels, 0 < ch.nbins ∧ ∀ s ∈ ch.samples, s.Std ch.nbins)
    (hn : (m.channels.map (·.name)).Nodup) (hA : m.setInternal = .ok A)
    (hH : ∀ ch ∈ m.channels, HessOk ch) {R : Nat → ℝ}
    (hR : m.refTot A = .ok R) (hR0 : ∀ b < m.nbinsPoisson, 0 < R b)
    {x₀ : Fin n → ℝ} {θ₀ : Fin P → ℝ} {d : DataV P} (hd : m.generateAsimov A x₀ θ₀ = .ok d)
    (hc : ∀ b < m.nbinsPoisson, 0 < d.counts b) {A' : Arrays} (hA' : (m.times k).setInternal = .ok A')
    {d' : DataV P} (hd' : (m.times k).generateAsimov A' x₀ θ₀ = .ok d')
    {H F : (Fin n → ℝ) → Prop} (hF : F x₀) {a b a' b' : ℝ}
    (ha : IsLeast (nllsWhere m A d H) a) (hb : IsLeast (nllsWhere m A d F) b)
    (ha' : IsLeast (nllsWhere (m.times k) A' d' H) a')
    (hb' : IsLeast (nllsWhere (m.times k) A' d' F) b') (s : TMu) (hk' : s.testPois ≠ []) :
    s.asymptoticPv (some (2 * (a' - b'))) ≤ s.asymptoticPv (some (2 * (a - b))) :=
  (c23_tmu s hk').2.2.1 _ _ (c95_ratio hk hvar hs hn hA hH hR hR0 hd hc hA' hd' hF ha hb ha' hb').2

/-- The hypotheses hold for a model with a Poisson channel of two bins and a Gaussian channel and twice the data, the
signal strength 1 generated and 2 tested. -/
example : ∃ A R d A' d' a b a' b', (1 : ℝ) ≤ 2 ∧ Demo.two.variations = none ∧
    (∀ ch ∈ Demo.two.channels, 0 < ch.nbins ∧ ∀ s ∈ ch.samples, s.Std ch.nbins) ∧
    (Demo.two.channels.map (·.name)).Nodup ∧ Demo.two.setInternal = .ok A ∧ (∀ ch ∈ Demo.two.channels, HessOk ch) ∧
    Demo.two.refTot A = .ok R ∧ (∀ b < Demo.two.nbinsPoisson, 0 < R b) ∧
    Demo.two.generateAsimov A (fun _ => 1) (fun _ => 0) = .ok d ∧ (∀ b < Demo.two.nbinsPoisson, 0 < d.counts b) ∧
    (Demo.two.times 2).setInternal = .ok A' ∧
    (Demo.two.times 2).generateAsimov A' (fun _ => 1) (fun _ => 0) = .ok d' ∧
    IsLeast (nllsWhere Demo.two A d fun x => x 0 = 2) a ∧ IsLeast (nllsWhere Demo.two A d fun _ => True) b ∧
    IsLeast (nllsWhere (Demo.two.times 2) A' d' fun x => x 0 = 2) a' ∧
    IsLeast (nllsWhere (Demo.two.times 2) A' d' fun _ => True) b' := by
  obtain ⟨A, R, hA, hR, hR0, d, hd, hc, a, ha⟩ := DemoAdd.data Demo.two.channels
    (by intro c h; simpa [DemoAdd.chans] using h) [DemoAdd.chG] rfl (by simp) (by simp [PoissonFirst, DemoAdd.chans, DemoAdd.chP, DemoAdd.chG])
  have std := DemoAdd.std Demo.two.channels (by intro c h; simpa [DemoAdd.chans] using h)
  have hn : (Demo.two.channels.map (·.name)).Nodup := by simp [DemoAdd.chans, DemoAdd.chP, DemoAdd.chG]
  have hk : (1 : ℝ) ≤ 2 := by norm_num
  obtain ⟨A', hA', -, h3⟩ := c95_predictions (m := Demo.two) 2 rfl std hn hA
  obtain ⟨d', hd', -, -⟩ := h3 _ _ _ hd
  obtain ⟨b, b', hb, hb', hinc⟩ := c95_increments (m := Demo.two) hk rfl std hn hA DemoAdd.hess hR hR0 hd hc
    hA' hd' true false
  obtain ⟨a', ha', -, -⟩ := hinc _ _ a ha
  refine ⟨A, R, d, A', d', a, b, a', b', hk, rfl, std, hn, hA, DemoAdd.hess, hR, hR0, hd, hc, hA', hd',
    DemoAdd.only _ _ _ _ ha, ⟨⟨_, _, trivial, hb⟩, ?_⟩, DemoAdd.only _ _ _ _ ha', ⟨⟨_, _, trivial, hb'⟩, ?_⟩⟩
  · rintro w ⟨x, θ, -, hw⟩
    obtain ⟨_, _, h1, -⟩ := hinc x θ w hw
    linarith
  · rintro w ⟨x, θ, -, hw⟩
    obtain ⟨v, hv⟩ := times_finite (m := Demo.two) hk rfl std hn hA hR hR0 hd hc hA' hd' hw
    obtain ⟨w2, h0, h1, h2⟩ := hinc x θ v hv
    have h0 : (Demo.two.times 2).nll A' x θ d' = .ok (.fin w2) := h0
    rw [hw] at h0
    have h0 := Except.ok.inj (ε := PyErr) h0
    injection h0 with h0
    linarith

end Verif.Props
