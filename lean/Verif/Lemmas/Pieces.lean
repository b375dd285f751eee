import Verif.Lemmas.ChanSum
/-!
# Parts of a model
-/
namespace Verif
open Mdl

theorem binsOf_append (l1 l2 : List Channel) : binsOf (l1 ++ l2) = binsOf l1 + binsOf l2 := by
  simp [binsOf]

theorem binsOf_cons (a : Channel) (l : List Channel) : binsOf (a :: l) = a.nbins + binsOf l := by
  simp [binsOf]

/-- The channel of a bin. -/
theorem locate (l : List Channel) (j : Nat) (hj : j < binsOf l) : ∃ p ch q b, l = p ++ ch :: q ∧
    b < ch.nbins ∧ j = binsOf p + b := by
  induction l generalizing j with
  | nil => simp [binsOf] at hj
  | cons a l ih =>
    rw [binsOf_cons] at hj
    by_cases hja : j < a.nbins
    · exact ⟨[], a, l, j, rfl, hja, by simp [binsOf]⟩
    · obtain ⟨p, ch, q, b, h1, h2, h3⟩ := ih (j - a.nbins) (by omega)
      exact ⟨a :: p, ch, q, b, by rw [h1]; rfl, h2, by rw [binsOf_cons]; omega⟩

theorem PoissonFirst.sub {l l' : List Channel} (h : PoissonFirst l') (hs : l.Sublist l') : PoissonFirst l :=
  h.sublist (hs.map _)

theorem PoissonFirst.before {p q : List Channel} {ch : Channel} (h : PoissonFirst (p ++ ch :: q))
    (hg : ch.gaussian = false) : ∀ c ∈ p, c.gaussian = false := by
  intro c hc
  unfold PoissonFirst at h
  rw [List.map_append, List.pairwise_append] at h
  have := h.2.2 c.gaussian (List.mem_map.2 ⟨c, hc, rfl⟩) ch.gaussian (by simp)
  by_contra h0
  rw [this (by simpa using h0)] at hg
  cases hg

/-- The property holds in all bins of Poisson channels. -/
def OnPoisson (l : List Channel) (Q : Nat → Prop) : Prop :=
  ∀ p ch q, l = p ++ ch :: q → ch.gaussian = false → ∀ b < ch.nbins, Q (binsOf p + b)

theorem onPoisson_iff {n P : Nat} {m : Mdl n P} (ho : PoissonFirst m.channels) (Q : Nat → Prop) :
    OnPoisson m.channels Q ↔ ∀ b < m.nbinsPoisson, Q b := by
  constructor
  · intro h j hj
    obtain ⟨p, ch, q, b, h1, h2, rfl⟩ := locate (m.channels.filter (fun c => !c.gaussian)) j hj
    have hg : ch.gaussian = false := by
      have : ch ∈ m.channels.filter (fun c => !c.gaussian) := by rw [h1]; simp
      simpa using (List.mem_filter.1 this).2
    refine h p ch (q ++ m.channels.filter (fun c => c.gaussian)) ?_ hg b h2
    conv_lhs => rw [poisson_split ho]
    rw [h1]; simp
  · intro h p ch q hl hg b hb
    refine h _ ?_
    have hp := PoissonFirst.before (hl ▸ ho) hg
    unfold nbinsPoisson
    rw [hl, List.filter_append, List.filter_cons_of_pos (by simp [hg]), List.filter_eq_self.2 (by
      intro c hc; simp [hp c hc])]
    have := binsOf_append p (ch :: q.filter (fun c => !c.gaussian))
    rw [binsOf_cons] at this
    unfold binsOf at *
    rw [this]
    omega

theorem OnPoisson.mid {p l q : List Channel} {Q : Nat → Prop} (h : OnPoisson (p ++ l ++ q) Q) :
    OnPoisson l (fun b => Q (binsOf p + b)) := by
  intro p' ch q' hl hg b hb
  have := h (p ++ p') ch (q' ++ q) (by rw [hl]; simp) hg b hb
  rwa [binsOf_append, add_assoc] at this

theorem OnPoisson.imp {l : List Channel} {Q R : Nat → Prop} (h : OnPoisson l Q) (hi : ∀ b < binsOf l, Q b → R b) :
    OnPoisson l R := by
  intro p ch q hl hg b hb
  refine hi _ ?_ (h p ch q hl hg b hb)
  rw [hl, binsOf_append, binsOf_cons]; omega

namespace Mdl
variable {n P : Nat}

theorem withChannels_self (m : Mdl n P) : m.withChannels m.channels = m := rfl

/-- A part of a model predicts what the model predicts in its bins. -/
theorem part_tot {m : Mdl n P} (hvar : m.variations = none)
    (hs : ∀ ch ∈ m.channels, 0 < ch.nbins ∧ ∀ s ∈ ch.samples, s.Std ch.nbins) {A : Arrays}
    (hA : m.setInternal = .ok A) {p l q : List Channel} (hl : m.channels = p ++ l ++ q) {A' : Arrays}
    (hA' : (m.withChannels l).setInternal = .ok A') {x : Fin n → ℝ} {θ : Fin P → ℝ} {N : Nat → ℝ}
    (hN : m.totBinExp A x θ = .ok N) :
    ∃ N', (m.withChannels l).totBinExp A' x θ = .ok N' ∧ ∀ b < binsOf l, N' b = N (binsOf p + b) := by
  obtain ⟨vals, hv, hc, -⟩ := tot_inv hN
  have hsub : ∀ ch ∈ l, ch ∈ m.channels := fun ch h => by rw [hl]; simp [h]
  have hs' : ∀ ch ∈ (m.withChannels l).channels, 0 < ch.nbins ∧ ∀ s ∈ ch.samples, s.Std ch.nbins :=
    fun ch h => hs ch (hsub ch h)
  have hu := uniform_of_std hvar hs
  have hu' : (m.withChannels l).Uniform 1 := uniform_of_std hvar hs'
  have hv' : (m.withChannels l).ctx.realVals x = .ok vals := hv
  have hc' : (m.withChannels l).Computable vals := ⟨shapeOk_of_yieldsShaped (uniform_shaped hu'),
    fun ch h => hc.norm0 ch (hsub ch h), fun ch h => hc.value ch (hsub ch h)⟩
  refine ⟨_, tot_ok A' θ hv' hc', fun j hj => ?_⟩
  obtain ⟨p', ch, q', b, h1, h2, rfl⟩ := locate l j hj
  have e1 := tot_at hu' hA' (tot_ok A' θ hv' hc') hv' (ch := ch) (pre := p') (post := q') h1 h2
  have e2 := tot_at hu hA hN hv (ch := ch) (pre := p ++ p') (post := q' ++ q) (by rw [hl, h1]; simp) h2
  unfold binsOf
  rw [e1]
  rw [List.map_append, List.sum_append, add_assoc] at e2
  rw [e2]
  rfl

theorem part_set {m : Mdl n P} (hvar : m.variations = none)
    (hs : ∀ ch ∈ m.channels, 0 < ch.nbins ∧ ∀ s ∈ ch.samples, s.Std ch.nbins) (ho : PoissonFirst m.channels)
    {p l q : List Channel} (hl : m.channels = p ++ l ++ q) : ∃ A', (m.withChannels l).setInternal = .ok A' := by
  refine setInternal_of_std (m := m.withChannels l) hvar (fun ch h => hs ch (by rw [hl]; exact List.mem_append_left _ (List.mem_append_right _ h))) ?_
  refine ho.sub ?_
  rw [hl]
  exact (List.sublist_append_right p l).trans (List.sublist_append_left _ q)

/-- A yield with the optional floor of `tot_bin_exp`. -/
noncomputable def floorOf (fl : Option ℝ) (r : ℝ) : ℝ :=
  match fl with
  | none => r
  | some f => max r f

theorem tot_floor {m : Mdl n P} {A : Arrays} {x : Fin n → ℝ} {θ : Fin P → ℝ} {N : Nat → ℝ}
    (hN : m.totBinExp A x θ = .ok N) (fl : Option ℝ) :
    m.totBinExp A x θ fl = .ok (fun b => if b < m.nbinsPoisson then floorOf fl (N b) else N b) := by
  obtain ⟨ne, h1, h2⟩ := nExp_of_totBinExp hN
  simp only [totBinExp, h1, bind_ok, h2]
  cases fl with
  | none => simp only [floorOf, ite_self]; rfl
  | some f => rfl

/-- Poisson term of a bin. -/
noncomputable def termP (off : Bool) (fl : Option ℝ) (N N0 c : ℝ) : ℝ :=
  if off then floorOf fl N - N0 - c * Real.log (floorOf fl N / N0) else floorOf fl N - c * Real.log (floorOf fl N)

/-- Residuals of a Gaussian bin. -/
noncomputable def termU (off : Bool) (N N0 c : ℝ) : ℝ := if off then N - c + N0 else N - c
/-- see `termU` -/
noncomputable def termV (off : Bool) (N N0 c : ℝ) : ℝ := if off then N - c - N0 else N - c

/-- The likelihood as a sum over channels. -/
theorem nll_blocks {m : Mdl n P} (ho : PoissonFirst m.channels) {A : Arrays} {x : Fin n → ℝ} {θ : Fin P → ℝ}
    {N N0 : Nat → ℝ} (hN : m.totBinExp A x θ = .ok N) (hN0 : m.refTot A = .ok N0) (d : DataV P) (off : Bool)
    (fl : Option ℝ) (nc : Bool) (hp : OnPoisson m.channels fun b => 0 < floorOf fl (N b))
    (hp0 : off = true → OnPoisson m.channels fun b => 0 < N0 b) :
    m.nll A x θ d off fl nc = .ok (.fin (blockSum m.channels (fun b => termP off fl (N b) (N0 b) (d.counts b))
      (fun b => termU off (N b) (N0 b) (d.counts b)) (fun b => termV off (N b) (N0 b) (d.counts b)) +
      if nc then 0 else m.constraintTerm θ d)) := by
  rw [← terms_eq_blockSum ho]
  have hp' := (onPoisson_iff ho _).1 hp
  cases off with
  | false =>
    rw [nll_ok (tot_floor hN fl) (fun b hb => by rw [if_pos hb]; exact hp' b hb)]
    unfold nllVal
    congr 4
    · refine Finset.sum_congr rfl fun b hb => ?_
      dsimp only
      rw [if_pos (Finset.mem_range.1 hb)]; rfl
    · congr 1 <;> (funext i; dsimp only; rw [if_neg (by omega)]; rfl)
  | true =>
    have hp0' := (onPoisson_iff ho _).1 (hp0 rfl)
    rw [nll_off_ok (tot_floor hN fl) (fun b hb => by rw [if_pos hb]; exact hp' b hb) hN0 hp0']
    unfold nllValOff
    congr 4
    · refine Finset.sum_congr rfl fun b hb => ?_
      dsimp only
      rw [if_pos (Finset.mem_range.1 hb)]; rfl
    · congr 1 <;> (funext i; dsimp only; rw [if_neg (by omega)]; rfl)

/-- The likelihood of a part of a model. -/
theorem nll_part {m : Mdl n P} (hvar : m.variations = none)
    (hs : ∀ ch ∈ m.channels, 0 < ch.nbins ∧ ∀ s ∈ ch.samples, s.Std ch.nbins) (ho : PoissonFirst m.channels)
    {A : Arrays} (hA : m.setInternal = .ok A) {p l q : List Channel} (hl : m.channels = p ++ l ++ q)
    {A' : Arrays} (hA' : (m.withChannels l).setInternal = .ok A')
    {x : Fin n → ℝ} {θ : Fin P → ℝ} {N N0 : Nat → ℝ} (hN : m.totBinExp A x θ = .ok N) (hN0 : m.refTot A = .ok N0)
    (d : DataV P) (off : Bool) (fl : Option ℝ) (nc : Bool) (hp : OnPoisson m.channels fun b => 0 < floorOf fl (N b))
    (hp0 : off = true → OnPoisson m.channels fun b => 0 < N0 b) :
    (m.withChannels l).nll A' x θ (d.from (binsOf p)) off fl nc = .ok (.fin (blockSum l
      (fun b => termP off fl (N (binsOf p + b)) (N0 (binsOf p + b)) (d.counts (binsOf p + b)))
      (fun b => termU off (N (binsOf p + b)) (N0 (binsOf p + b)) (d.counts (binsOf p + b)))
      (fun b => termV off (N (binsOf p + b)) (N0 (binsOf p + b)) (d.counts (binsOf p + b))) +
      if nc then 0 else m.constraintTerm θ d)) := by
  obtain ⟨N', hN', h1⟩ := part_tot hvar hs hA hl hA' hN
  obtain ⟨N0', hN0', h2⟩ := part_tot hvar hs hA hl hA' (x := m.poiInit) (θ := 0) hN0
  have ho' : PoissonFirst (m.withChannels l).channels := by
    refine ho.sub ?_
    rw [hl]
    exact (List.sublist_append_right p l).trans (List.sublist_append_left _ q)
  rw [hl] at hp hp0
  rw [nll_blocks ho' hN' hN0' (d.from (binsOf p)) off fl nc (hp.mid.imp fun b hb h => by rw [h1 b hb]; exact h)
    (fun h => (hp0 h).mid.imp fun b hb h => by rw [h2 b hb]; exact h)]
  congr 3
  refine blockSum_congr l ?_ ?_ ?_ <;> (intro b hb; simp only [h1 b hb, h2 b hb]; rfl)

/-- Sum over parts. -/
theorem blockSum_parts (parts : List (List Channel)) (T u v : Nat → ℝ) :
    blockSum parts.flatten T u v = ∑ i : Fin parts.length, blockSum parts[i]
      (fun b => T (binsOf (parts.take i).flatten + b)) (fun b => u (binsOf (parts.take i).flatten + b))
      (fun b => v (binsOf (parts.take i).flatten + b)) := by
  induction parts generalizing T u v with
  | nil => simp [blockSum]
  | cons a parts ih =>
    rw [List.flatten_cons, blockSum_append, ih]
    have := Fin.sum_univ_succ (n := parts.length) (fun i : Fin (parts.length + 1) => blockSum ((a :: parts)[i])
      (fun b => T (binsOf ((a :: parts).take i).flatten + b)) (fun b => u (binsOf ((a :: parts).take i).flatten + b))
      (fun b => v (binsOf ((a :: parts).take i).flatten + b)))
    refine Eq.trans ?_ this.symm
    congr 1
    · simp [binsOf]
    · refine Finset.sum_congr rfl fun i _ => ?_
      simp [binsOf_append, add_assoc]

end Mdl
end Verif
