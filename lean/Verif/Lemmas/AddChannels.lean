import Verif.Lemmas.Pieces
import Verif.Lemmas.NLLVal
/-! # Likelihood increments over the channels -/
namespace Verif
open Mdl

namespace Mdl

/-- The terms of the bins of a list of channels. -/
noncomputable def chanTerms (l : List Channel) (off : Bool) (N N0 c : Nat → ℝ) : ℝ :=
  blockSum l (fun b => termP off none (N b) (N0 b) (c b)) (fun b => termU off (N b) (N0 b) (c b))
    (fun b => termV off (N b) (N0 b) (c b))

theorem termP_min (off : Bool) {N N0 c : ℝ} (hN : 0 < N) (hc : 0 < c) (h0 : off = true → 0 < N0) :
    termP off none c N0 c ≤ termP off none N N0 c := by
  have h := gibbs hc hN
  cases off with
  | false => simpa [termP, floorOf] using h
  | true =>
    have := h0 rfl
    simp only [termP, floorOf, if_true]
    rw [Real.log_div hN.ne' this.ne', Real.log_div hc.ne' this.ne']
    nlinarith

theorem quadDiff (k : Nat) (H : Nat → Nat → ℝ) (hs : ∀ i < k, ∀ j < k, H i j = H j i) (r w : Nat → ℝ) :
    ∑ i ∈ Finset.range k, ∑ j ∈ Finset.range k, (r i + w i) * H i j * (r j - w j) =
    ∑ i ∈ Finset.range k, ∑ j ∈ Finset.range k, r i * H i j * r j -
      ∑ i ∈ Finset.range k, ∑ j ∈ Finset.range k, w i * H i j * w j := by
  have e : ∑ i ∈ Finset.range k, ∑ j ∈ Finset.range k, w i * H i j * r j =
      ∑ i ∈ Finset.range k, ∑ j ∈ Finset.range k, r i * H i j * w j := by
    rw [Finset.sum_comm]
    refine Finset.sum_congr rfl fun i hi => Finset.sum_congr rfl fun j hj => ?_
    rw [hs j (Finset.mem_range.1 hj) i (Finset.mem_range.1 hi)]; ring
  have : ∀ i j, (r i + w i) * H i j * (r j - w j) =
      r i * H i j * r j - w i * H i j * w j + (w i * H i j * r j - r i * H i j * w j) := fun i j => by ring
  simp only [this, Finset.sum_add_distrib, Finset.sum_sub_distrib, e]
  ring

theorem chanTerms_min (l : List Channel) (off : Bool) (N N0 c : Nat → ℝ) (hH : ∀ ch ∈ l, HessOk ch)
    (hN : OnPoisson l fun b => 0 < N b) (hc : OnPoisson l fun b => 0 < c b)
    (h0 : off = true → OnPoisson l fun b => 0 < N0 b) : chanTerms l off c N0 c ≤ chanTerms l off N N0 c := by
  induction l generalizing N N0 c with
  | nil => exact le_refl _
  | cons a l ih =>
    have tail : ∀ {Q : Nat → Prop}, OnPoisson (a :: l) Q → OnPoisson l (fun b => Q (a.nbins + b)) := by
      intro Q h
      have := OnPoisson.mid (p := [a]) (l := l) (q := []) (Q := Q) (by simpa using h)
      simpa [binsOf] using this
    have head : ∀ {Q : Nat → Prop}, OnPoisson (a :: l) Q → a.gaussian = false → ∀ b < a.nbins, Q b := by
      intro Q h hg b hb
      have := h [] a l rfl hg b hb
      simpa [binsOf] using this
    refine add_le_add ?_ (ih _ _ _ (fun ch h => hH ch (by simp [h])) (tail hN) (tail hc) fun h => tail (h0 h))
    unfold chVal
    by_cases hg : a.gaussian = true
    · rw [if_pos hg, if_pos hg]
      obtain ⟨hs, hp⟩ := hH a (by simp) hg
      refine mul_le_mul_of_nonneg_left ?_ (by norm_num)
      have h1 := hp fun b => N b - c b
      cases off with
      | false => simpa [termU, termV] using h1
      | true =>
        simp only [termU, termV, if_true]
        rw [quadDiff _ _ hs (fun b => N b - c b) N0, quadDiff _ _ hs (fun b => c b - c b) N0]
        simp only [sub_self, zero_mul, Finset.sum_const_zero]
        linarith
    · rw [if_neg hg, if_neg hg]
      have hg : a.gaussian = false := by simpa using hg
      exact Finset.sum_le_sum fun b hb => termP_min off (head hN hg b (Finset.mem_range.1 hb))
        (head hc hg b (Finset.mem_range.1 hb)) fun h => head (h0 h) hg b (Finset.mem_range.1 hb)

theorem chanTerms_append (l1 l2 : List Channel) (off : Bool) (N N0 c : Nat → ℝ) :
    chanTerms (l1 ++ l2) off N N0 c = chanTerms l1 off N N0 c +
      chanTerms l2 off (fun b => N (binsOf l1 + b)) (fun b => N0 (binsOf l1 + b)) (fun b => c (binsOf l1 + b)) :=
  blockSum_append _ _ _ _ _

theorem chanTerms_congr (l : List Channel) (off : Bool) {N N0 c N' N0' c' : Nat → ℝ} (h1 : ∀ b < binsOf l, N b = N' b)
    (h2 : ∀ b < binsOf l, N0 b = N0' b) (h3 : ∀ b < binsOf l, c b = c' b) :
    chanTerms l off N N0 c = chanTerms l off N' N0' c' := by
  refine blockSum_congr l ?_ ?_ ?_ <;> (intro b hb; rw [h1 b hb, h2 b hb, h3 b hb])

/-- `σ` sends the bins of a list of channels to those of the same channels in another list. -/
def Embeds (l' l : List Channel) (σ : Nat → Nat) : Prop :=
  ∀ p' ch q', l' = p' ++ ch :: q' → ∃ p q, l = p ++ ch :: q ∧ ∀ b < ch.nbins, σ (binsOf p' + b) = binsOf p + b

theorem chanTerms_cons (a : Channel) (l : List Channel) (off : Bool) (N N0 c : Nat → ℝ) :
    chanTerms (a :: l) off N N0 c = chanTerms [a] off N N0 c +
      chanTerms l off (fun b => N (a.nbins + b)) (fun b => N0 (a.nbins + b)) (fun b => c (a.nbins + b)) := by
  have := chanTerms_append [a] l off N N0 c
  simpa [binsOf] using this

theorem _root_.Verif.OnPoisson.tail {a : Channel} {l : List Channel} {Q : Nat → Prop} (h : OnPoisson (a :: l) Q) :
    OnPoisson l (fun b => Q (a.nbins + b)) := by
  have := OnPoisson.mid (p := [a]) (l := l) (q := []) (Q := Q) (by simpa using h)
  simpa [binsOf] using this

theorem _root_.Verif.OnPoisson.head {a : Channel} {l : List Channel} {Q : Nat → Prop} (h : OnPoisson (a :: l) Q) :
    OnPoisson [a] Q := by
  have := OnPoisson.mid (p := []) (l := [a]) (q := l) (Q := Q) (by simpa using h)
  simpa [binsOf] using this

theorem _root_.Verif.OnPoisson.pull {l' l : List Channel} {σ : Nat → Nat} (he : Embeds l' l σ) {Q : Nat → Prop}
    (h : OnPoisson l Q) : OnPoisson l' (fun b => Q (σ b)) := by
  intro p' ch q' hl hg b hb
  obtain ⟨p, q, h1, h2⟩ := he p' ch q' hl
  rw [h2 b hb]
  exact h p ch q h1 hg b hb

/-- Increments over a sublist are at most those over the whole. -/
theorem chanTerms_sub {l' l : List Channel} (h : l'.Sublist l) : ∃ σ, Embeds l' l σ ∧
    ∀ (off : Bool) (N N0 c : Nat → ℝ), (∀ ch ∈ l, HessOk ch) → OnPoisson l (fun b => 0 < N b) →
      OnPoisson l (fun b => 0 < c b) → (off = true → OnPoisson l fun b => 0 < N0 b) →
      chanTerms l' off (fun b => N (σ b)) (fun b => N0 (σ b)) (fun b => c (σ b)) -
        chanTerms l' off (fun b => c (σ b)) (fun b => N0 (σ b)) (fun b => c (σ b)) ≤
      chanTerms l off N N0 c - chanTerms l off c N0 c := by
  induction h with
  | slnil => exact ⟨id, fun p' ch q' h => by simp at h, fun off N N0 c _ _ _ _ => le_refl _⟩
  | @cons l' l a _ ih =>
    obtain ⟨σ, h1, h2⟩ := ih
    refine ⟨fun b => a.nbins + σ b, fun p' ch q' h => ?_, fun off N N0 c hH hN hc h0 => ?_⟩
    · obtain ⟨p, q, e1, e2⟩ := h1 p' ch q' h
      exact ⟨a :: p, q, by rw [e1]; rfl, fun b hb => by
        dsimp only
        rw [e2 b hb, binsOf_cons, add_assoc]⟩
    · have k1 := chanTerms_min [a] off N N0 c (fun ch h => hH ch (by simp only [List.mem_singleton] at h; simp [h]))
        hN.head hc.head fun h => (h0 h).head
      have k2 := h2 off (fun b => N (a.nbins + b)) (fun b => N0 (a.nbins + b)) (fun b => c (a.nbins + b))
        (fun ch h => hH ch (by simp [h])) hN.tail hc.tail fun h => (h0 h).tail
      rw [chanTerms_cons a l, chanTerms_cons a l]
      linarith
  | @cons_cons l' l a _ ih =>
    obtain ⟨σ, h1, h2⟩ := ih
    refine ⟨fun b => if b < a.nbins then b else a.nbins + σ (b - a.nbins), fun p' ch q' h => ?_,
      fun off N N0 c hH hN hc h0 => ?_⟩
    · cases p' with
      | nil =>
        simp only [List.nil_append, List.cons.injEq] at h
        obtain ⟨rfl, -⟩ := h
        exact ⟨[], l, rfl, fun b hb => by simp [binsOf, hb]⟩
      | cons a' p' =>
        simp only [List.cons_append, List.cons.injEq] at h
        obtain ⟨rfl, h⟩ := h
        obtain ⟨p, q, e1, e2⟩ := h1 p' ch q' h
        refine ⟨a :: p, q, by rw [e1]; rfl, fun b hb => ?_⟩
        dsimp only
        rw [binsOf_cons, binsOf_cons, add_assoc, if_neg (by omega), Nat.add_sub_cancel_left, e2 b hb, add_assoc]
    · have k2 := h2 off (fun b => N (a.nbins + b)) (fun b => N0 (a.nbins + b)) (fun b => c (a.nbins + b))
        (fun ch h => hH ch (by simp [h])) hN.tail hc.tail fun h => (h0 h).tail
      have key : ∀ M : Nat → ℝ, chanTerms (a :: l') off
          (fun b => M (if b < a.nbins then b else a.nbins + σ (b - a.nbins)))
          (fun b => N0 (if b < a.nbins then b else a.nbins + σ (b - a.nbins)))
          (fun b => c (if b < a.nbins then b else a.nbins + σ (b - a.nbins))) = chanTerms [a] off M N0 c +
          chanTerms l' off (fun b => M (a.nbins + σ b)) (fun b => N0 (a.nbins + σ b)) (fun b => c (a.nbins + σ b)) := by
        intro M
        rw [chanTerms_cons]
        congr 1
        · refine chanTerms_congr [a] off ?_ ?_ ?_ <;>
            (intro b hb; simp only [binsOf, List.map_cons, List.map_nil, List.sum_cons, List.sum_nil, add_zero] at hb
             rw [if_pos hb])
        · refine chanTerms_congr l' off ?_ ?_ ?_ <;>
            (intro b hb; rw [if_neg (by omega), Nat.add_sub_cancel_left])
      rw [key N, key c, chanTerms_cons a l, chanTerms_cons a l]
      linarith

/-- Some of the channels of a model predict what the model predicts in their bins. -/
theorem sub_tot {n P : Nat} {m : Mdl n P} (hvar : m.variations = none)
    (hs : ∀ ch ∈ m.channels, 0 < ch.nbins ∧ ∀ s ∈ ch.samples, s.Std ch.nbins) {A : Arrays}
    (hA : m.setInternal = .ok A) {l : List Channel} (hl : l.Sublist m.channels) {σ : Nat → Nat}
    (he : Embeds l m.channels σ) {A' : Arrays}
    (hA' : (m.withChannels l).setInternal = .ok A') {x : Fin n → ℝ} {θ : Fin P → ℝ} {N : Nat → ℝ}
    (hN : m.totBinExp A x θ = .ok N) :
    ∃ N', (m.withChannels l).totBinExp A' x θ = .ok N' ∧ ∀ b < binsOf l, N' b = N (σ b) := by
  obtain ⟨vals, hv, hc, -⟩ := tot_inv hN
  have hs' : ∀ ch ∈ (m.withChannels l).channels, 0 < ch.nbins ∧ ∀ s ∈ ch.samples, s.Std ch.nbins :=
    fun ch h => hs ch (hl.subset h)
  have hu := uniform_of_std hvar hs
  have hu' : (m.withChannels l).Uniform 1 := uniform_of_std hvar hs'
  have hv' : (m.withChannels l).ctx.realVals x = .ok vals := hv
  have hc' : (m.withChannels l).Computable vals := ⟨shapeOk_of_yieldsShaped (uniform_shaped hu'),
    fun ch h => hc.norm0 ch (hl.subset h), fun ch h => hc.value ch (hl.subset h)⟩
  refine ⟨_, tot_ok A' θ hv' hc', fun j hj => ?_⟩
  obtain ⟨p', ch, q', b, h1, h2, rfl⟩ := locate l j hj
  obtain ⟨p, q, h3, h4⟩ := he p' ch q' h1
  have e1 := tot_at hu' hA' (tot_ok A' θ hv' hc') hv' (ch := ch) (pre := p') (post := q') h1 h2
  have e2 := tot_at hu hA hN hv (ch := ch) (pre := p) (post := q) h3 h2
  rw [h4 b h2]
  unfold binsOf
  rw [e1, e2]
  rfl

theorem sub_set {n P : Nat} {m : Mdl n P} (hvar : m.variations = none)
    (hs : ∀ ch ∈ m.channels, 0 < ch.nbins ∧ ∀ s ∈ ch.samples, s.Std ch.nbins) (ho : PoissonFirst m.channels)
    {l : List Channel} (hl : l.Sublist m.channels) : ∃ A', (m.withChannels l).setInternal = .ok A' :=
  setInternal_of_std (m := m.withChannels l) hvar (fun ch h => hs ch (hl.subset h)) (ho.sub hl)

end Mdl
end Verif
