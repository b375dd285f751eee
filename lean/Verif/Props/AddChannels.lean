import Verif.Lemmas.AddChannels
import Verif.Lemmas.Demo
import Verif.Spec.Compose
import Verif.Props.Pieces
import Verif.Props.TestStat
/-!
# C94: more channels, more sensitivity
-/
namespace Verif.Props
open Verif Mdl Verif.Spec
variable {n P : Nat} {m : Mdl n P} {A : Arrays}

/-- A finite NLL on data without empty bins means positive yields. -/
theorem pos_of_nll {x : Fin n → ℝ} {θ : Fin P → ℝ} {d : DataV P} {off nc : Bool} {R : Nat → ℝ} {v : ℝ}
    (hc : ∀ b < m.nbinsPoisson, 0 < d.counts b) (hR : m.refTot A = .ok R) (hR0 : ∀ b < m.nbinsPoisson, 0 < R b)
    (h : m.nll A x θ d off none nc = .ok (.fin v)) :
    ∃ N, m.totBinExp A x θ = .ok N ∧ ∀ b < m.nbinsPoisson, 0 < N b := by
  have h' := h
  simp only [Mdl.nll] at h'
  obtain ⟨N, hN, -⟩ := bind_eq_ok.1 h'
  refine ⟨N, hN, ?_⟩
  by_contra hq
  push Not at hq
  obtain ⟨b, hb, hle⟩ := hq
  cases off with
  | false =>
    rw [nll_bad hN (fun b hb => (hc b hb).le) hb hle] at h
    cases Except.ok.inj (ε := PyErr) h
  | true =>
    rw [nll_off_bad hN (fun b hb => (hc b hb).le) hR hR0 hb hle] at h
    cases Except.ok.inj (ε := PyErr) h

theorem constraint_zero (m : Mdl n P) (θ : Fin P → ℝ) (c : Nat → ℝ) : m.constraintTerm θ ⟨c, θ⟩ = 0 := by
  simp [constraintTerm, show (fun p : Fin P => (0 : ℝ)) = 0 from rfl]

/-- **C94** Take a model with symmetric and non-negative Gaussian Hessians, its Asimov dataset for any POIs and
NPs, and the model with only some of its channels, with its own Asimov dataset for the same parameters.
Then moving the parameters anywhere raises the NLL of the part, by at most as much as that of the whole. -/
theorem c94_increments (hvar : m.variations = none)
    (hs : ∀ ch ∈ m.channels, 0 < ch.nbins ∧ ∀ s ∈ ch.samples, s.Std ch.nbins)
    (hn : (m.channels.map (·.name)).Nodup) (hA : m.setInternal = .ok A) {l : List Channel}
    (hl : l.Sublist m.channels) (hH : ∀ ch ∈ m.channels, HessOk ch) {R : Nat → ℝ}
    (hR : m.refTot A = .ok R) (hR0 : ∀ b < m.nbinsPoisson, 0 < R b)
    {x₀ : Fin n → ℝ} {θ₀ : Fin P → ℝ} {d : DataV P} (hd : m.generateAsimov A x₀ θ₀ = .ok d)
    (hc : ∀ b < m.nbinsPoisson, 0 < d.counts b) {A' : Arrays} (hA' : (m.withChannels l).setInternal = .ok A')
    {d' : DataV P} (hd' : (m.withChannels l).generateAsimov A' x₀ θ₀ = .ok d') (offset nc : Bool) :
    ∃ v₀ w₀, m.nll A x₀ θ₀ d offset none nc = .ok (.fin v₀) ∧
      (m.withChannels l).nll A' x₀ θ₀ d' offset none nc = .ok (.fin w₀) ∧
      ∀ x θ v, m.nll A x θ d offset none nc = .ok (.fin v) →
        ∃ w, (m.withChannels l).nll A' x θ d' offset none nc = .ok (.fin w) ∧ 0 ≤ w - w₀ ∧ w - w₀ ≤ v - v₀ := by
  have ho := setInternal_order hn hA
  have ho' : PoissonFirst (m.withChannels l).channels := ho.sub hl
  obtain ⟨σ, he, hinc⟩ := chanTerms_sub hl
  simp only [Mdl.generateAsimov] at hd hd'
  obtain ⟨C, hC, hd⟩ := bind_eq_ok.1 hd
  obtain ⟨C', hC', hd'⟩ := bind_eq_ok.1 hd'
  obtain rfl := Except.ok.inj (ε := PyErr) hd
  obtain rfl := Except.ok.inj (ε := PyErr) hd'
  obtain ⟨C1, e1, hCC⟩ := sub_tot hvar hs hA hl he hA' hC
  rw [hC'] at e1
  obtain rfl := Except.ok.inj (ε := PyErr) e1
  obtain ⟨R', hR', hRR⟩ := sub_tot hvar hs hA hl he hA' (x := m.poiInit) (θ := 0) hR
  have hcP : OnPoisson m.channels fun b => 0 < C b := (onPoisson_iff ho _).2 hc
  have hRP : OnPoisson m.channels fun b => 0 < R b := (onPoisson_iff ho _).2 hR0
  have whole : ∀ {x θ N}, m.totBinExp A x θ = .ok N → (OnPoisson m.channels fun b => 0 < N b) →
      m.nll A x θ ⟨C, θ₀⟩ offset none nc = .ok (.fin (chanTerms m.channels offset N R C +
        if nc then 0 else m.constraintTerm θ ⟨C, θ₀⟩)) := fun hN hp =>
    nll_blocks ho hN hR _ offset none nc hp fun _ => hRP
  have part : ∀ {x θ N N'}, m.totBinExp A x θ = .ok N → (OnPoisson m.channels fun b => 0 < N b) →
      (m.withChannels l).totBinExp A' x θ = .ok N' → (∀ b < binsOf l, N' b = N (σ b)) →
      (m.withChannels l).nll A' x θ ⟨C', θ₀⟩ offset none nc = .ok (.fin (chanTerms l offset N' R' C' +
        if nc then 0 else m.constraintTerm θ ⟨C, θ₀⟩)) := by
    intro x θ N N' hN hp hN' hNN
    refine nll_blocks ho' hN' hR' _ offset none nc ((hp.pull he).imp fun b hb h => ?_) fun _ => (hRP.pull he).imp fun b hb h => ?_
    · rw [hNN b hb]; exact h
    · rw [hRR b hb]; exact h
  refine ⟨_, _, whole hC hcP, part hC hcP hC' hCC, fun x θ v hv => ?_⟩
  obtain ⟨N, hN, hNp⟩ := pos_of_nll hc hR hR0 hv
  have hNP : OnPoisson m.channels fun b => 0 < N b := (onPoisson_iff ho _).2 hNp
  obtain ⟨N', hN', hNN⟩ := sub_tot hvar hs hA hl he hA' hN
  rw [whole hN hNP] at hv
  have hv := Except.ok.inj (ε := PyErr) hv
  injection hv with hv
  subst hv
  refine ⟨_, part hN hNP hN' hNN, ?_⟩
  have k2 := hinc offset N R C hH hNP hcP fun _ => hRP
  rw [← chanTerms_congr l offset hNN hRR hCC, ← chanTerms_congr l offset hCC hRR hCC] at k2
  have k1 : chanTerms l offset C' R' C' ≤ chanTerms l offset N' R' C' := by
    refine chanTerms_min l offset _ _ _ (fun ch h => hH ch (hl.subset h)) ((hNP.pull he).imp fun b hb h => ?_)
      ((hcP.pull he).imp fun b hb h => ?_) fun _ => (hRP.pull he).imp fun b hb h => ?_
    · rw [hNN b hb]; exact h
    · rw [hCC b hb]; exact h
    · rw [hRR b hb]; exact h
  have k3 := m.constraintTerm_nonneg θ ⟨C, θ₀⟩
  rw [constraint_zero]
  cases nc
  · simp only [Bool.false_eq_true, if_false]
    constructor <;> linarith
  · simp only [if_true]
    constructor <;> linarith

/-- **C94** So the exact profile likelihood ratio of any hypothesis (the POIs satisfying any condition), in fits
in which the generating POIs are allowed, is at least as large for the whole as for the part. -/
theorem c94_ratio (hvar : m.variations = none)
    (hs : ∀ ch ∈ m.channels, 0 < ch.nbins ∧ ∀ s ∈ ch.samples, s.Std ch.nbins)
    (hn : (m.channels.map (·.name)).Nodup) (hA : m.setInternal = .ok A) {l : List Channel}
    (hl : l.Sublist m.channels) (hH : ∀ ch ∈ m.channels, HessOk ch) {R : Nat → ℝ}
    (hR : m.refTot A = .ok R) (hR0 : ∀ b < m.nbinsPoisson, 0 < R b)
    {x₀ : Fin n → ℝ} {θ₀ : Fin P → ℝ} {d : DataV P} (hd : m.generateAsimov A x₀ θ₀ = .ok d)
    (hc : ∀ b < m.nbinsPoisson, 0 < d.counts b) {A' : Arrays} (hA' : (m.withChannels l).setInternal = .ok A')
    {d' : DataV P} (hd' : (m.withChannels l).generateAsimov A' x₀ θ₀ = .ok d')
    {H F : (Fin n → ℝ) → Prop} (hF : F x₀) {a b a' b' : ℝ}
    (ha : IsLeast (nllsWhere m A d H) a) (hb : IsLeast (nllsWhere m A d F) b)
    (ha' : IsLeast (nllsWhere (m.withChannels l) A' d' H) a')
    (hb' : IsLeast (nllsWhere (m.withChannels l) A' d' F) b') :
    0 ≤ 2 * (a' - b') ∧ 2 * (a' - b') ≤ 2 * (a - b) := by
  obtain ⟨v₀, w₀, hv₀, hw₀, hinc⟩ := c94_increments hvar hs hn hA hl hH hR hR0 hd hc hA' hd' true false
  obtain ⟨σ, he, -⟩ := chanTerms_sub hl
  obtain ⟨R', hR', hRR⟩ := sub_tot hvar hs hA hl he hA' (x := m.poiInit) (θ := 0) hR
  have ho := setInternal_order hn hA
  have ho' : PoissonFirst (m.withChannels l).channels := ho.sub hl
  have hRP : OnPoisson m.channels fun b => 0 < R b := (onPoisson_iff ho _).2 hR0
  have hR0' : ∀ b < (m.withChannels l).nbinsPoisson, 0 < R' b :=
    (onPoisson_iff ho' fun b => 0 < R' b).1 ((hRP.pull he).imp fun b hb h => by rw [hRR b hb]; exact h)
  have hc' : ∀ b < (m.withChannels l).nbinsPoisson, 0 < d'.counts b := by
    simp only [Mdl.generateAsimov] at hd hd'
    obtain ⟨C, hC, hd⟩ := bind_eq_ok.1 hd
    obtain ⟨C', hC', hd'⟩ := bind_eq_ok.1 hd'
    obtain rfl := Except.ok.inj (ε := PyErr) hd
    obtain rfl := Except.ok.inj (ε := PyErr) hd'
    obtain ⟨C1, e1, hCC⟩ := sub_tot hvar hs hA hl he hA' hC
    rw [hC'] at e1
    obtain rfl := Except.ok.inj (ε := PyErr) e1
    have hcP : OnPoisson m.channels fun b => 0 < C b := (onPoisson_iff ho _).2 hc
    exact (onPoisson_iff ho' fun b => 0 < C' b).1 ((hcP.pull he).imp fun b hb h => by rw [hCC b hb]; exact h)
  obtain ⟨_, w₁, _, hw₁, hself⟩ := c94_increments (m := m.withChannels l) hvar (fun ch h => hs ch (hl.subset h))
    (hn.sublist (hl.map _)) hA' (l := l) (List.Sublist.refl _)
    (fun ch h => hH ch (hl.subset h)) hR' hR0' hd' hc' hA' hd' true false
  have e : w₁ = w₀ := by
    have h1 : (m.withChannels l).nll A' x₀ θ₀ d' true none false = .ok (.fin w₁) := hw₁
    rw [hw₀] at h1
    have h1 := Except.ok.inj (ε := PyErr) h1
    injection h1 with h1
    exact h1.symm
  subst e
  have low : ∀ x θ w, (m.withChannels l).nll A' x θ d' true none false = .ok (.fin w) → w₁ ≤ w := by
    intro x θ w hw
    obtain ⟨w2, h1, h2, -⟩ := hself x θ w hw
    have h1 : (m.withChannels l).nll A' x θ d' true none false = .ok (.fin w2) := h1
    rw [hw] at h1
    have h1 := Except.ok.inj (ε := PyErr) h1
    injection h1 with h1
    linarith
  obtain ⟨x', θ', hx', ea'⟩ := ha'.1
  obtain ⟨x1, θ1, hx1, ea⟩ := ha.1
  obtain ⟨xb, θb, hxb, eb⟩ := hb'.1
  obtain ⟨w, k1, k2, k3⟩ := hinc x1 θ1 a ea
  have t1 : b' ≤ w₁ := hb'.2 ⟨x₀, θ₀, hF, hw₀⟩
  have t2 : b ≤ v₀ := hb.2 ⟨x₀, θ₀, hF, hv₀⟩
  have t3 : a' ≤ w := ha'.2 ⟨x1, θ1, hx1, k1⟩
  have t4 := low _ _ _ ea'
  have t5 := low _ _ _ eb
  constructor <;> linarith

/-- **C94** And its asymptotic p-value at most as large: what the part is expected to exclude the whole is
expected to exclude. -/
theorem c94_pvalue (hvar : m.variations = none)
    (hs : ∀ ch ∈ m.channels, 0 < ch.nbins ∧ ∀ s ∈ ch.samples, s.Std ch.nbins)
    (hn : (m.channels.map (·.name)).Nodup) (hA : m.setInternal = .ok A) {l : List Channel}
    (hl : l.Sublist m.channels) (hH : ∀ ch ∈ m.channels, HessOk ch) {R : Nat → ℝ}
    (hR : m.refTot A = .ok R) (hR0 : ∀ b < m.nbinsPoisson, 0 < R b)
    {x₀ : Fin n → ℝ} {θ₀ : Fin P → ℝ} {d : DataV P} (hd : m.generateAsimov A x₀ θ₀ = .ok d)
    (hc : ∀ b < m.nbinsPoisson, 0 < d.counts b) {A' : Arrays} (hA' : (m.withChannels l).setInternal = .ok A')
    {d' : DataV P} (hd' : (m.withChannels l).generateAsimov A' x₀ θ₀ = .ok d')
    {H F : (Fin n → ℝ) → Prop} (hF : F x₀) {a b a' b' : ℝ}
    (ha : IsLeast (nllsWhere m A d H) a) (hb : IsLeast (nllsWhere m A d F) b)
    (ha' : IsLeast (nllsWhere (m.withChannels l) A' d' H) a')
    (hb' : IsLeast (nllsWhere (m.withChannels l) A' d' F) b') (s : TMu) (hk : s.testPois ≠ []) :
    s.asymptoticPv (some (2 * (a - b))) ≤ s.asymptoticPv (some (2 * (a' - b'))) :=
  (c23_tmu s hk).2.2.1 _ _ (c94_ratio hvar hs hn hA hl hH hR hR0 hd hc hA' hd' hF ha hb ha' hb').2

/-- **C94** The Asimov dataset of the part exists, and is that of the whole in the bins of its channels. -/
theorem c94_part_asimov (hvar : m.variations = none)
    (hs : ∀ ch ∈ m.channels, 0 < ch.nbins ∧ ∀ s ∈ ch.samples, s.Std ch.nbins)
    (hn : (m.channels.map (·.name)).Nodup) (hA : m.setInternal = .ok A) {l : List Channel}
    (hl : l.Sublist m.channels) {x₀ : Fin n → ℝ} {θ₀ : Fin P → ℝ} {d : DataV P}
    (hd : m.generateAsimov A x₀ θ₀ = .ok d) :
    ∃ A' d', (m.withChannels l).setInternal = .ok A' ∧ (m.withChannels l).generateAsimov A' x₀ θ₀ = .ok d' ∧
      d'.aux_obs = d.aux_obs ∧ ∀ p' ch q', l = p' ++ ch :: q' → ∃ p q, m.channels = p ++ ch :: q ∧
        ∀ b < ch.nbins, d'.counts (binsOf p' + b) = d.counts (binsOf p + b) := by
  obtain ⟨A', hA'⟩ := sub_set hvar hs (setInternal_order hn hA) hl
  obtain ⟨σ, he, -⟩ := chanTerms_sub hl
  simp only [Mdl.generateAsimov] at hd
  obtain ⟨C, hC, hd⟩ := bind_eq_ok.1 hd
  obtain rfl := Except.ok.inj (ε := PyErr) hd
  obtain ⟨C', hC', hCC⟩ := sub_tot hvar hs hA hl he hA' hC
  refine ⟨A', ⟨C', θ₀⟩, hA', by simp only [Mdl.generateAsimov, hC', bind_ok]; rfl, rfl,
    fun p' ch q' h => ?_⟩
  obtain ⟨p, q, h1, h2⟩ := he p' ch q' h
  refine ⟨p, q, h1, fun b hb => ?_⟩
  rw [← h2 b hb]
  exact hCC _ (by rw [h, binsOf_append, binsOf_cons]; omega)

namespace DemoAdd

/-- The Poisson channel with two bins. -/
noncomputable def chP : Channel := ⟨"p", false, 2, fun _ _ => 0, [⟨"s", .expr "mu", 1, [1, 2], []⟩]⟩
/-- The Gaussian one. -/
noncomputable def chG : Channel := ⟨"g", true, 1, fun _ _ => 1, [⟨"s", .expr "mu", 1, [1], []⟩]⟩

theorem chans : Demo.two.channels = [chP, chG] := rfl

theorem sub : [chP].Sublist Demo.two.channels := by
  rw [chans]; exact List.Sublist.cons_cons _ (List.nil_sublist _)

theorem std (l : List Channel) (hl : ∀ c ∈ l, c = chP ∨ c = chG) :
    ∀ ch ∈ (Demo.two.withChannels l).channels, 0 < ch.nbins ∧ ∀ s ∈ ch.samples, s.Std ch.nbins := by
  intro ch hc
  rcases hl ch hc with rfl | rfl <;> refine ⟨by simp [chP, chG], fun s hs => ?_⟩ <;>
    (simp only [chP, chG, List.mem_singleton] at hs; subst hs; exact ⟨rfl, fun par i hi => by cases hi⟩)

theorem vals (l : List Channel) (x : Fin 1 → ℝ) : (Demo.two.withChannels l).ctx.realVals x = .ok [("mu", x 0)] := by
  simp [ExprCtx.realVals, ctx, withChannels, Demo.two, ExprCtx.evalLoop, ExprCtx.base]

theorem comp (l : List Channel) (hl : ∀ c ∈ l, c = chP ∨ c = chG) (v : ℝ) :
    (Demo.two.withChannels l).Computable [("mu", v)] := by
  refine ⟨shapeOk_of_yieldsShaped fun ch hc s hs => ((std l hl ch hc).2 s hs).1, fun ch hc s hs => ?_, fun ch hc s hs => ?_⟩ <;>
    (rcases hl ch hc with rfl | rfl <;> (simp only [chP, chG, List.mem_singleton] at hs; subst hs))
  · simp
  · simp
  · exact ⟨v, by simp [Norm.value, Dict.getItem, Dict.get?]⟩
  · exact ⟨v, by simp [Norm.value, Dict.getItem, Dict.get?]⟩

theorem yield_pos (l : List Channel) {v : ℝ} (hv : 0 < v) (θ : Fin 0 → ℝ) (b : Nat) (hb : b < 2) :
    0 < (Demo.two.withChannels l).sampleYield [("mu", v)] θ ⟨"s", .expr "mu", 1, [1, 2], []⟩ b := by
  have h1 : normVal [("mu", v)] (.expr "mu") = v := by simp [normVal, Expr.look, Dict.get?_cons]
  unfold sampleYield cutOf combine
  have hc : (Demo.two.withChannels l).cutoff = 0 := rfl
  have hl : (Demo.two.withChannels l).use_linear_nps = true := rfl
  rw [if_pos hc, hl]
  simp only [if_true, h1]
  interval_cases b <;> simp [hv]

theorem tot (l : List Channel) (hl : ∀ c ∈ l, c = chP ∨ c = chG) {A : Arrays}
    (hA : (Demo.two.withChannels l).setInternal = .ok A) (post : List Channel) (hp : l = chP :: post)
    (hg : ∀ c ∈ post, c = chG) {x : Fin 1 → ℝ} (hx : 0 < x 0) (θ : Fin 0 → ℝ) :
    ∃ N, (Demo.two.withChannels l).totBinExp A x θ = .ok N ∧ ∀ b < (Demo.two.withChannels l).nbinsPoisson, 0 < N b := by
  have ht := tot_ok A θ (vals l x) (comp l hl (x 0))
  refine ⟨_, ht, fun b hb => ?_⟩
  have hb2 : b < 2 := by
    have : (Demo.two.withChannels l).nbinsPoisson = 2 := by
      have hf : post.filter (fun c => !c.gaussian) = [] := by
        rw [List.filter_eq_nil_iff]
        intro c hc
        rw [hg c hc]; simp [chG]
      simp [nbinsPoisson, withChannels, hp, chP, hf]
    omega
  have := tot_at (uniform_of_std (m := Demo.two.withChannels l) rfl (std l hl)) hA ht (vals l x) (pre := []) (ch := chP)
    (post := post) hp (b := b) hb2
  simp only [List.map_nil, List.sum_nil, zero_add] at this
  rw [this]
  simp only [chP, List.map_cons, List.map_nil, List.sum_cons, List.sum_nil, add_zero]
  exact yield_pos l hx θ b hb2

/-- Everything about the model with these channels that the theorems need. -/
theorem data (l : List Channel) (hl : ∀ c ∈ l, c = chP ∨ c = chG) (post : List Channel) (hp : l = chP :: post)
    (hg : ∀ c ∈ post, c = chG) (ho : PoissonFirst l) : ∃ A R, (Demo.two.withChannels l).setInternal = .ok A ∧
    (Demo.two.withChannels l).refTot A = .ok R ∧ (∀ b < (Demo.two.withChannels l).nbinsPoisson, 0 < R b) ∧
    ∃ d, (Demo.two.withChannels l).generateAsimov A (fun _ => 1) (fun _ => 0) = .ok d ∧
      (∀ b < (Demo.two.withChannels l).nbinsPoisson, 0 < d.counts b) ∧
      ∃ v, (Demo.two.withChannels l).nll A (fun _ => 2) (fun _ => 0) d = .ok (.fin v) := by
  obtain ⟨A, hA⟩ := setInternal_of_std (m := Demo.two.withChannels l) rfl (std l hl) ho
  obtain ⟨R, hR, hR0⟩ := tot l hl hA post hp hg (x := Demo.two.poiInit) (by simp [Demo.two]) 0
  obtain ⟨C, hC, hC0⟩ := tot l hl hA post hp hg (x := fun _ => 1) (by norm_num) (fun _ => 0)
  obtain ⟨N, hN, hN0⟩ := tot l hl hA post hp hg (x := fun _ => 2) (by norm_num) (fun _ => 0)
  exact ⟨A, R, hA, hR, hR0, ⟨C, fun _ => 0⟩, by simp only [Mdl.generateAsimov, hC, bind_ok]; rfl, hC0, _,
    nll_off_ok hN hN0 hR hR0⟩

theorem hess : ∀ ch ∈ Demo.two.channels, HessOk ch := by
  intro ch hc hg
  rw [chans] at hc
  simp only [List.mem_cons, List.not_mem_nil, or_false] at hc
  rcases hc with rfl | rfl
  · cases hg
  · refine ⟨fun _ _ _ _ => rfl, fun u => ?_⟩
    simp only [chG, Finset.sum_range_one, mul_one]
    exact mul_self_nonneg _

theorem only (m : Mdl 1 0) (A : Arrays) (d : DataV 0) (v : ℝ) (h : m.nll A (fun _ => 2) (fun _ => 0) d = .ok (.fin v)) :
    IsLeast (nllsWhere m A d fun x => x 0 = 2) v := by
  refine ⟨⟨_, _, rfl, h⟩, ?_⟩
  rintro w ⟨x, θ, hx, hw⟩
  have e1 : x = fun _ => 2 := by
    funext i
    rw [Subsingleton.elim i 0, hx]
  have e2 : θ = fun _ => 0 := Subsingleton.elim _ _
  subst e1 e2
  rw [h] at hw
  have hw := Except.ok.inj (ε := PyErr) hw
  injection hw with hw
  exact hw.le


end DemoAdd

/-- The hypotheses hold for a model with a Poisson channel of two bins and a Gaussian channel, its Poisson
part, the signal strength 1 generated and 2 tested. -/
example : ∃ A R d A' d' a b a' b', Demo.two.variations = none ∧
    (∀ ch ∈ Demo.two.channels, 0 < ch.nbins ∧ ∀ s ∈ ch.samples, s.Std ch.nbins) ∧
    (Demo.two.channels.map (·.name)).Nodup ∧ Demo.two.setInternal = .ok A ∧
    [DemoAdd.chP].Sublist Demo.two.channels ∧ (∀ ch ∈ Demo.two.channels, HessOk ch) ∧
    Demo.two.refTot A = .ok R ∧ (∀ b < Demo.two.nbinsPoisson, 0 < R b) ∧
    Demo.two.generateAsimov A (fun _ => 1) (fun _ => 0) = .ok d ∧ (∀ b < Demo.two.nbinsPoisson, 0 < d.counts b) ∧
    (Demo.two.withChannels [DemoAdd.chP]).setInternal = .ok A' ∧
    (Demo.two.withChannels [DemoAdd.chP]).generateAsimov A' (fun _ => 1) (fun _ => 0) = .ok d' ∧
    IsLeast (nllsWhere Demo.two A d fun x => x 0 = 2) a ∧ IsLeast (nllsWhere Demo.two A d fun _ => True) b ∧
    IsLeast (nllsWhere (Demo.two.withChannels [DemoAdd.chP]) A' d' fun x => x 0 = 2) a' ∧
    IsLeast (nllsWhere (Demo.two.withChannels [DemoAdd.chP]) A' d' fun _ => True) b' := by
  obtain ⟨A, R, hA, hR, hR0, d, hd, hc, a, ha⟩ := DemoAdd.data Demo.two.channels
    (by intro c h; simpa [DemoAdd.chans] using h) [DemoAdd.chG] rfl (by simp) (by simp [PoissonFirst, DemoAdd.chans, DemoAdd.chP, DemoAdd.chG])
  obtain ⟨A', R', hA', hR', hR0', d', hd', hc', a', ha'⟩ := DemoAdd.data [DemoAdd.chP]
    (by simp) [] rfl (by simp) (by simp [PoissonFirst])
  have std := DemoAdd.std Demo.two.channels (by intro c h; simpa [DemoAdd.chans] using h)
  have hn : (Demo.two.channels.map (·.name)).Nodup := by simp [DemoAdd.chans, DemoAdd.chP, DemoAdd.chG]
  obtain ⟨b, b', hb, hb', hinc⟩ := c94_increments (m := Demo.two) rfl std hn hA DemoAdd.sub DemoAdd.hess hR hR0 hd hc
    hA' hd' true false
  obtain ⟨_, b'', _, hb'', hinc'⟩ := c94_increments (m := Demo.two.withChannels [DemoAdd.chP]) rfl
    (DemoAdd.std _ (by simp)) (by simp [withChannels]) hA' (l := [DemoAdd.chP]) (List.Sublist.refl _)
    (fun ch h => DemoAdd.hess ch (by simp only [withChannels, List.mem_singleton] at h; simp [DemoAdd.chans, h])) hR' hR0' hd' hc' hA' hd' true false
  refine ⟨A, R, d, A', d', a, b, a', b', rfl, std, hn, hA, DemoAdd.sub, DemoAdd.hess, hR, hR0, hd, hc, hA', hd', DemoAdd.only _ _ _ _ ha, ?_,
    DemoAdd.only _ _ _ _ ha', ?_⟩
  · refine ⟨⟨_, _, trivial, hb⟩, ?_⟩
    rintro w ⟨x, θ, -, hw⟩
    obtain ⟨_, _, h1, h2⟩ := hinc x θ w hw
    linarith
  · refine ⟨⟨_, _, trivial, hb'⟩, ?_⟩
    rintro w ⟨x, θ, -, hw⟩
    obtain ⟨w2, h0, h1, h2⟩ := hinc' x θ w hw
    have e1 : b'' = b' := by
      have h1 : (Demo.two.withChannels [DemoAdd.chP]).nll A' (fun _ => 1) (fun _ => 0) d' true none false = .ok (.fin b'') := hb''
      rw [hb'] at h1
      have h1 := Except.ok.inj (ε := PyErr) h1
      injection h1 with h1
      exact h1.symm
    have h0 : (Demo.two.withChannels [DemoAdd.chP]).nll A' x θ d' true none false = .ok (.fin w2) := h0
    rw [hw] at h0
    have h0 := Except.ok.inj (ε := PyErr) h0
    injection h0 with h0
    linarith

end Verif.Props
