import Verif.Model.Sampling
import Verif.Lemmas.Except
import Verif.Lemmas.Hypo
import Verif.Lemmas.Normal
import Verif.Spec.Sampling
import Mathlib.Tactic
/-! Helper lemmas on bisection, sorting and the sampling distributions. -/
namespace Verif
open Classical

theorem bisect_inv (l : List ℝ) (below : ℝ → Prop)
    (hmono : ∀ a b, a ≤ b → below b → below a) (hs : l.Pairwise (· ≤ ·)) (lo hi : ℕ) :
    lo ≤ hi → hi ≤ l.length →
    (∀ i, i < lo → below (l.getD i 0)) → (∀ i, hi ≤ i → i < l.length → ¬ below (l.getD i 0)) →
    lo ≤ bisect l below lo hi ∧ bisect l below lo hi ≤ hi ∧
    (∀ i, i < bisect l below lo hi → below (l.getD i 0)) ∧
    (∀ i, bisect l below lo hi ≤ i → i < l.length → ¬ below (l.getD i 0)) := by
  have hle : ∀ i j, i ≤ j → j < l.length → l.getD i 0 ≤ l.getD j 0 := by
    intro i j hij hj
    rcases Nat.lt_or_ge i j with h | h
    · have := List.pairwise_iff_getElem.1 hs i j (by omega) hj h
      simpa [List.getD_eq_getElem?_getD, hj, show i < l.length by omega] using this
    · have : i = j := by omega
      rw [this]
  induction lo, hi using bisect.induct l below with
  | case1 lo hi h hb ih =>
    intro h1 h2 h3 h4
    rw [bisect, if_pos h, if_pos hb]
    have := ih (by omega) h2 (by
      intro i hi'
      exact hmono _ _ (hle i ((lo + hi) / 2) (by omega) (by omega)) hb) h4
    refine ⟨by omega, this.2⟩
  | case2 lo hi h hb ih =>
    intro h1 h2 h3 h4
    rw [bisect, if_pos h, if_neg hb]
    have := ih (by omega) (by omega) h3 (by
      intro i hi' hil hbi
      exact hb (hmono _ _ (hle ((lo + hi) / 2) i (by omega) (by omega)) hbi))
    refine ⟨this.1, by omega, this.2.2⟩
  | case3 lo hi h =>
    intro h1 h2 h3 h4
    rw [bisect, if_neg h]
    have : lo = hi := by omega
    subst this
    exact ⟨le_refl _, le_refl _, h3, h4⟩

theorem countP_of_split (l : List ℝ) (below : ℝ → Prop) (r : ℕ) (hr : r ≤ l.length)
    (h1 : ∀ i, i < r → below (l.getD i 0))
    (h2 : ∀ i, r ≤ i → i < l.length → ¬ below (l.getD i 0)) :
    l.countP (fun x => decide (below x)) = r := by
  conv_lhs => rw [← List.take_append_drop r l]
  rw [List.countP_append]
  have ha : (l.take r).countP (fun x => decide (below x)) = (l.take r).length := by
    rw [List.countP_eq_length]
    intro x hx
    obtain ⟨i, hi, rfl⟩ := List.getElem_of_mem hx
    have hi' : i < r := by simp at hi; omega
    have := h1 i hi'
    simpa [List.getD_eq_getElem?_getD, show i < l.length by omega] using this
  have hb : (l.drop r).countP (fun x => decide (below x)) = 0 := by
    rw [List.countP_eq_zero]
    intro x hx
    obtain ⟨i, hi, rfl⟩ := List.getElem_of_mem hx
    have hi' : r + i < l.length := by simp at hi; omega
    have := h2 (r + i) (by omega) hi'
    simpa [List.getD_eq_getElem?_getD, hi'] using this
  rw [ha, hb]
  simp [hr]

theorem bisect_eq_countP (l : List ℝ) (below : ℝ → Prop)
    (hmono : ∀ a b, a ≤ b → below b → below a) (hs : l.Pairwise (· ≤ ·)) :
    bisect l below 0 l.length = l.countP (fun x => decide (below x)) := by
  obtain ⟨-, h2, h3, h4⟩ := bisect_inv l below hmono hs 0 l.length (by omega) (le_refl _)
    (by intro i hi; omega) (by intro i hi hi'; omega)
  exact (countP_of_split l below _ h2 h3 h4).symm

namespace SampDist

theorem sort_perm (l : List ℝ) : (sort l).Perm l := List.mergeSort_perm _ _

theorem sort_sorted (l : List ℝ) : (sort l).Pairwise (· ≤ ·) := by
  have := List.pairwise_mergeSort (le := fun a b : ℝ => decide (a ≤ b))
    (by intro a b c h1 h2; simp at *; linarith) (by intro a b; simp; exact le_total a b) l
  exact this.imp (by intro a b h; simpa using h)

@[simp] theorem sort_length (l : List ℝ) : (sort l).length = l.length := (sort_perm l).length_eq

theorem sort_congr {l l' : List ℝ} (h : l.Perm l') : sort l = sort l' :=
  List.Perm.eq_of_pairwise (le := (· ≤ ·)) (fun a b _ _ h1 h2 => le_antisymm h1 h2)
    (sort_sorted l) (sort_sorted l') ((sort_perm l).trans (h.trans (sort_perm l').symm))

theorem sort_of_sorted {l : List ℝ} (h : l.Pairwise (· ≤ ·)) : sort l = l :=
  List.Perm.eq_of_pairwise (le := (· ≤ ·)) (fun a b _ _ h1 h2 => le_antisymm h1 h2)
    (sort_sorted l) h (sort_perm l)

theorem searchLeft_sorted {l : List ℝ} (h : l.Pairwise (· ≤ ·)) (x : ℝ) :
    searchLeft l x = l.countP (fun y => decide (y < x)) :=
  bisect_eq_countP l (· < x) (fun _ _ h1 h2 => lt_of_le_of_lt h1 h2) h

theorem searchRight_sorted {l : List ℝ} (h : l.Pairwise (· ≤ ·)) (x : ℝ) :
    searchRight l x = l.countP (fun y => decide (y ≤ x)) :=
  bisect_eq_countP l (· ≤ x) (fun _ _ h1 h2 => le_trans h1 h2) h

theorem pv_sorted {l : List ℝ} (h : l.Pairwise (· ≤ ·)) (hl : l ≠ []) (x : ℝ) :
    pv l x = .ok (((l.countP (fun y => decide (y < x)) : ℝ) +
      (l.countP (fun y => decide (y ≤ x)) : ℝ)) / 2 / l.length) := by
  have : l.length ≠ 0 := by simpa using hl
  simp only [pv, if_neg this, searchLeft_sorted h, searchRight_sorted h]

theorem getD_le_of_sorted {l : List ℝ} (h : l.Pairwise (· ≤ ·)) {i j : ℕ} (hij : i ≤ j)
    (hj : j < l.length) : l[i]'(by omega) ≤ l[j] := by
  rcases Nat.lt_or_ge i j with h' | h'
  · exact List.pairwise_iff_getElem.1 h i j (by omega) hj h'
  · have : i = j := by omega
    subst this; exact le_refl _

/-- In a sorted list at least `i+1` entries are at most the `i`-th. -/
theorem countP_le_getElem {l : List ℝ} (h : l.Pairwise (· ≤ ·)) (i : ℕ) (hi : i < l.length) :
    i + 1 ≤ l.countP (fun y => decide (y ≤ l[i])) := by
  obtain ⟨v, hv⟩ : ∃ v, v = l[i] := ⟨_, rfl⟩
  rw [← hv]
  conv_rhs => rw [← List.take_append_drop (i + 1) l]
  rw [List.countP_append]
  have : (l.take (i + 1)).countP (fun y => decide (y ≤ v)) = (l.take (i + 1)).length := by
    rw [List.countP_eq_length]
    intro x hx
    obtain ⟨j, hj, rfl⟩ := List.getElem_of_mem hx
    have hj' : j < i + 1 := by simp at hj; omega
    simp only [List.getElem_take, decide_eq_true_eq]
    rw [hv]
    exact getD_le_of_sorted h (by omega) hi
  rw [this, List.length_take]
  omega

/-- In a sorted list at most `i` entries are below the `i`-th. -/
theorem countP_lt_getElem {l : List ℝ} (h : l.Pairwise (· ≤ ·)) (i : ℕ) (hi : i < l.length) :
    l.countP (fun y => decide (y < l[i])) ≤ i := by
  obtain ⟨v, hv⟩ : ∃ v, v = l[i] := ⟨_, rfl⟩
  rw [← hv]
  conv_lhs => rw [← List.take_append_drop i l]
  rw [List.countP_append]
  have : (l.drop i).countP (fun y => decide (y < v)) = 0 := by
    rw [List.countP_eq_zero]
    intro x hx
    obtain ⟨j, hj, rfl⟩ := List.getElem_of_mem hx
    have hj' : i + j < l.length := by simp at hj; omega
    simp only [List.getElem_drop, decide_eq_true_eq, not_lt]
    rw [hv]
    exact getD_le_of_sorted h (by omega) hj'
  rw [this]
  have := List.countP_le_length (p := fun y => decide (y < v)) (l := l.take i)
  rw [List.length_take] at this
  omega

theorem floor_lt {n : ℕ} (hn : 0 < n) {f : ℝ} (h0 : 0 ≤ f) (h1 : f < 1) : ⌊(n : ℝ) * f⌋₊ < n := by
  rw [Nat.floor_lt (by positivity)]
  have : (0 : ℝ) < n := by exact_mod_cast hn
  nlinarith

theorem quantile_ok (cdf : ℝ → ℝ) (l : List ℝ) (hl : l ≠ []) (f : ℝ) (h0 : 0 ≤ f) (h1 : f < 1)
    (ns : Option ℝ) :
    quantile cdf l (some f) ns =
      .ok (l[⌊(l.length : ℝ) * f⌋₊]'(floor_lt (List.length_pos_iff.2 hl) h0 h1)) := by
  have hf := floor_lt (List.length_pos_iff.2 hl) h0 h1
  have : ¬ (f < 0 ∨ f > 1) := by
    rintro (h | h) <;> linarith
  simp only [quantile, bind_ok]
  rw [if_neg this]
  simp [List.getElem?_eq_getElem hf]

theorem quantile_nsigmas (cdf : ℝ → ℝ) (l : List ℝ) (ns : ℝ) :
    quantile cdf l none (some ns) = quantile cdf l (some (cdf ns)) none := rfl

theorem countP_le_countP_add {l : List ℝ} (hnd : l.Nodup) (x : ℝ) :
    l.countP (fun y => decide (y ≤ x)) ≤ l.countP (fun y => decide (y < x)) + 1 := by
  induction l with
  | nil => simp
  | cons a l ih =>
    have hnd' := List.nodup_cons.1 hnd
    rw [List.countP_cons, List.countP_cons]
    rcases lt_trichotomy a x with h | h | h
    · simp only [h, h.le, decide_true, if_true]; have := ih hnd'.2; omega
    · subst h
      have : l.countP (fun y => decide (y ≤ a)) = l.countP (fun y => decide (y < a)) := by
        apply List.countP_congr
        intro y hy
        have : y ≠ a := fun h => hnd'.1 (h ▸ hy)
        simp [lt_iff_le_and_ne, this]
      simp [this]
    · simp only [not_le.2 h, h.le.not_gt, decide_false]
      exact ih hnd'.2

theorem countP_lt_le (l : List ℝ) (x : ℝ) :
    l.countP (fun y => decide (y < x)) ≤ l.countP (fun y => decide (y ≤ x)) := by
  apply List.countP_mono_left
  intro y _ h
  simp at *
  linarith

theorem sort_ne_nil {l : List ℝ} (hl : l ≠ []) : sort l ≠ [] := by
  intro h; apply hl; have := (sort_perm l).length_eq; rw [h] at this
  exact List.eq_nil_of_length_eq_zero this.symm

theorem pv_init (l : List ℝ) (hl : l ≠ []) (x : ℝ) : pv (sort l) x = .ok (Spec.midP l x) := by
  have hp := sort_perm l
  rw [pv_sorted (sort_sorted l) (sort_ne_nil hl), hp.countP_eq, hp.countP_eq, hp.length_eq, div_div]
  rfl

theorem midP_range (l : List ℝ) (hl : l ≠ []) (x : ℝ) : 0 ≤ Spec.midP l x ∧ Spec.midP l x ≤ 1 := by
  have hn : (0 : ℝ) < l.length := by exact_mod_cast List.length_pos_iff.2 hl
  refine ⟨by unfold Spec.midP; positivity, ?_⟩
  have h1 : (Spec.nBelow l x : ℝ) ≤ l.length := by exact_mod_cast List.countP_le_length
  have h2 : (Spec.nAtOrBelow l x : ℝ) ≤ l.length := by exact_mod_cast List.countP_le_length
  unfold Spec.midP
  rw [div_le_one (by positivity)]; linarith

theorem pvErr_init (l : List ℝ) (hl : l ≠ []) (x : ℝ) :
    ∃ e, pvErr (sort l) x = .ok (Spec.midP l x, e) ∧ 0 < e := by
  have hne : (sort l).length ≠ 0 := by rw [sort_length]; simpa using hl
  have hpv := pv_init l hl x
  have hb : ((searchLeft (sort l) x : ℝ) + (searchRight (sort l) x : ℝ)) / 2 ≤
      ((sort l).length : ℝ) := by
    rw [searchLeft_sorted (sort_sorted l), searchRight_sorted (sort_sorted l)]
    have h1 : ((sort l).countP (fun y => decide (y < x)) : ℝ) ≤ (sort l).length := by
      exact_mod_cast List.countP_le_length
    have h2 : ((sort l).countP (fun y => decide (y ≤ x)) : ℝ) ≤ (sort l).length := by
      exact_mod_cast List.countP_le_length
    linarith
  have hpos : (0 : ℝ) < ((sort l).length : ℝ) := by exact_mod_cast Nat.pos_of_ne_zero hne
  simp only [pv, pvErr] at hpv ⊢
  rw [if_neg hne] at hpv ⊢
  rw [← Except.ok.inj (ε := PyErr) hpv]
  refine ⟨_, rfl, div_pos (Real.sqrt_pos.2 ?_) hpos⟩
  refine div_pos (mul_pos (by positivity) ?_) hpos
  linarith

theorem normCdf_eq (x : ℝ) : Spec.normCdf x = 1 - normSf x := by
  have : Set.Iic x = (Set.Ioi x)ᶜ := by ext; simp
  unfold Spec.normCdf normSf
  rw [this, MeasureTheory.probReal_compl_eq_one_sub measurableSet_Ioi]

theorem normCdf_range (x : ℝ) : 0 < Spec.normCdf x ∧ Spec.normCdf x < 1 := by
  rw [normCdf_eq]; have := normSf_pos x; have := normSf_lt_one x; constructor <;> linarith

theorem normCdf_strictMono : StrictMono Spec.normCdf := by
  intro a b h; rw [normCdf_eq, normCdf_eq]; have := normSf_strictAnti h; linarith

end SampDist

namespace Samples

/-- The band of order `i` exists when all distributions do, and is made of their quantiles. -/
theorem band_ok (h : List String → ℕ) (s : Samples) (i : ℤ)
    (hd : ∀ hypo ∈ s.hypos, ∃ l, l ≠ [] ∧ s.dists.get? h hypo = some (SampDist.sort l)) :
    ∃ b, s.band Spec.normCdf h i = .ok b ∧
      List.Forall₂ (fun hypo q => ∃ l, l ≠ [] ∧ s.dists.get? h hypo = some (SampDist.sort l) ∧
        SampDist.quantile Spec.normCdf (SampDist.sort l) none (some i) = .ok q) s.hypos b := by
  have : ∀ hypo ∈ s.hypos, ∃ q, s.quantile Spec.normCdf h hypo none (some i) = .ok q ∧
      ∃ l, l ≠ [] ∧ s.dists.get? h hypo = some (SampDist.sort l) ∧
        SampDist.quantile Spec.normCdf (SampDist.sort l) none (some i) = .ok q := by
    intro hypo hh
    obtain ⟨l, hl, hg⟩ := hd hypo hh
    have hr := SampDist.normCdf_range i
    have := SampDist.quantile_ok Spec.normCdf _ (SampDist.sort_ne_nil hl) (Spec.normCdf i) hr.1.le
      hr.2 none
    rw [← SampDist.quantile_nsigmas] at this
    refine ⟨_, ?_, l, hl, hg, this⟩
    simp only [quantile, (HDict.getItem_ok h _ _ _).2 hg, bind_ok]
    exact this
  clear hd
  unfold band
  revert this
  generalize s.hypos = hs
  intro this
  induction hs with
  | nil => exact ⟨[], rfl, .nil⟩
  | cons a hs ih =>
    obtain ⟨q, hq, hl⟩ := this a (by simp)
    obtain ⟨b, hb, hf⟩ := ih (fun x hx => this x (by simp [hx]))
    refine ⟨q :: b, ?_, .cons hl hf⟩
    rw [List.mapM_cons, hq, bind_ok, hb]; rfl

theorem quantile_mono (l : List ℝ) (i j : ℤ) (hij : i ≤ j) (q r : ℝ)
    (hq : SampDist.quantile Spec.normCdf (SampDist.sort l) none (some i) = .ok q)
    (hr : SampDist.quantile Spec.normCdf (SampDist.sort l) none (some j) = .ok r) : q ≤ r := by
  rcases eq_or_ne l [] with rfl | hl
  · have : SampDist.sort [] = [] := by simp [SampDist.sort]
    rw [this, SampDist.quantile_nsigmas] at hq
    simp only [SampDist.quantile, bind_ok] at hq
    have hr := SampDist.normCdf_range i
    rw [if_neg (by rintro (h | h) <;> linarith)] at hq
    simp at hq
  have h1 := SampDist.normCdf_range i
  have h2 := SampDist.normCdf_range j
  have hle : Spec.normCdf i ≤ Spec.normCdf j :=
    SampDist.normCdf_strictMono.monotone (by exact_mod_cast hij)
  rw [SampDist.quantile_nsigmas,
    SampDist.quantile_ok _ _ (SampDist.sort_ne_nil hl) _ h1.1.le h1.2] at hq
  rw [SampDist.quantile_nsigmas,
    SampDist.quantile_ok _ _ (SampDist.sort_ne_nil hl) _ h2.1.le h2.2] at hr
  rw [← Except.ok.inj (ε := PyErr) hq, ← Except.ok.inj (ε := PyErr) hr]
  exact SampDist.getD_le_of_sorted (SampDist.sort_sorted l)
    (Nat.floor_le_floor (by gcongr)) (SampDist.floor_lt (by
      rw [List.length_pos_iff]; exact SampDist.sort_ne_nil hl) h2.1.le h2.2)

theorem band_mono (h : List String → ℕ) (s : Samples) (i j : ℤ) (hij : i ≤ j) (bi bj : List ℝ)
    (hi : List.Forall₂ (fun hypo q => ∃ l, l ≠ [] ∧ s.dists.get? h hypo = some (SampDist.sort l) ∧
        SampDist.quantile Spec.normCdf (SampDist.sort l) none (some i) = .ok q) s.hypos bi)
    (hj : List.Forall₂ (fun hypo q => ∃ l, l ≠ [] ∧ s.dists.get? h hypo = some (SampDist.sort l) ∧
        SampDist.quantile Spec.normCdf (SampDist.sort l) none (some j) = .ok q) s.hypos bj) :
    List.Forall₂ (· ≤ ·) bi bj := by
  revert hi hj
  generalize s.hypos = hs
  intro hi hj
  induction hi generalizing bj with
  | nil => cases hj; exact .nil
  | cons ha ht ih =>
    cases hj with
    | cons hb ht' =>
      refine .cons ?_ (ih _ ht')
      obtain ⟨l, hl, hg, hq⟩ := ha
      obtain ⟨l', hl', hg', hr⟩ := hb
      have : SampDist.sort l = SampDist.sort l' := by rw [hg] at hg'; exact Option.some.inj hg'
      rw [← this] at hr
      exact quantile_mono l i j hij _ _ hq hr

end Samples

namespace CLsSamples

/-- The CLs value built from two collections of samples. -/
noncomputable def clsVal (lsb lb : List ℝ) (x : ℝ) : ℝ :=
  if Spec.midP lb x > 0 then Spec.midP lsb x / Spec.midP lb x else 1

theorem pv_eq (h : List String → ℕ) (s : CLsSamples) (hypo : Hypo) (lsb lb : List ℝ)
    (h1 : lsb ≠ []) (h2 : lb ≠ []) (g1 : s.clsb.dists.get? h hypo = some (SampDist.sort lsb))
    (g2 : s.cl_b.dists.get? h hypo = some (SampDist.sort lb)) (x : ℝ) :
    s.pv h hypo x = .ok (clsVal lsb lb x) := by
  simp only [pv, Samples.pv, (HDict.getItem_ok h _ _ _).2 g1, (HDict.getItem_ok h _ _ _).2 g2, bind_ok,
    SampDist.pv_init _ h1, SampDist.pv_init _ h2]
  rfl

theorem clsDists_ok (h : List String → ℕ) (s : CLsSamples) (lsb lb : Hypo → List ℝ)
    (hypos : List Hypo) (acc : HDict (List ℝ)) (hacc : acc.WF)
    (hw : ∀ a ∈ hypos, a.WF)
    (hd : ∀ a ∈ hypos, lsb a ≠ [] ∧ lb a ≠ [] ∧
      s.clsb.dists.get? h a = some (SampDist.sort (lsb a)) ∧
      s.cl_b.dists.get? h a = some (SampDist.sort (lb a)))
    (hc : ∀ a ∈ hypos, ∀ b ∈ hypos, a.matches h b → lsb a = lsb b ∧ lb a = lb b) :
    ∃ d, s.clsDists h hypos acc = .ok d ∧ d.WF ∧
      (∀ a ∈ hypos, d.get? h a = some (SampDist.sort ((lb a).map (clsVal (lsb a) (lb a))))) ∧
      (∀ a, a.WF → (∀ b ∈ hypos, ¬ b.matches h a) → d.get? h a = acc.get? h a) := by
  induction hypos generalizing acc with
  | nil => exact ⟨acc, rfl, hacc, by simp, fun _ _ _ => rfl⟩
  | cons a hypos ih =>
    obtain ⟨h1, h2, g1, g2⟩ := hd a (by simp)
    have haw := hw a (by simp)
    have hm : (SampDist.sort (lb a)).mapM (fun apv => s.pv h a apv) =
        .ok ((SampDist.sort (lb a)).map (clsVal (lsb a) (lb a))) := by
      rw [mapM_map_ok (g := clsVal (lsb a) (lb a))]
      intro x _
      exact pv_eq h s a _ _ h1 h2 g1 g2 x
    have hs : SampDist.sort ((SampDist.sort (lb a)).map (clsVal (lsb a) (lb a))) =
        SampDist.sort ((lb a).map (clsVal (lsb a) (lb a))) :=
      SampDist.sort_congr ((SampDist.sort_perm _).map _)
    obtain ⟨d, hdo, hdw, hdg, hdn⟩ := ih (acc.set h a _) (HDict.wf_set h hacc haw _)
      (fun b hb => hw b (by simp [hb])) (fun b hb => hd b (by simp [hb]))
      (fun b hb c hc' => hc b (by simp [hb]) c (by simp [hc']))
    refine ⟨d, ?_, hdw, ?_, ?_⟩
    · rw [clsDists, (HDict.getItem_ok h _ _ _).2 g2, bind_ok, hm, bind_ok]
      exact hdo
    · intro b hb
      by_cases hbt : b ∈ hypos
      · exact hdg b hbt
      · have hba : b = a := by simpa [hbt] using hb
        subst hba
        by_cases hex : ∃ c ∈ hypos, c.matches h b
        · obtain ⟨c, hc1, hc2⟩ := hex
          have hcw := hw c (by simp [hc1])
          rw [← HDict.get?_congr h hdw hcw haw hc2, hdg c hc1]
          obtain ⟨e1, e2⟩ := hc c (by simp [hc1]) b (by simp) hc2
          rw [e1, e2]
        · push Not at hex
          rw [hdn b haw hex, HDict.get?_set h hacc haw haw, if_pos (Hypo.matches_refl h haw), hs]
    · intro b hb hn
      rw [hdn b hb (fun c hc' => hn c (by simp [hc'])), HDict.get?_set h hacc haw hb,
        if_neg (hn a (by simp))]

end CLsSamples
end Verif
