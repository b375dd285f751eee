import Verif.Lemmas.DumpSamples
import Verif.Props.TestStat
import Mathlib.MeasureTheory.Integral.Lebesgue.Add
import Mathlib.Probability.HasLaw
/-!
# C90: the plots of sampling distributions
-/
namespace Verif.Props
open Verif Verif.Dump MeasureTheory
open Verif.Cmd (Str Lib)

/-- The axis goes from `lo` to `hi`: the two numbers of the option, or the default. -/
def AxisIs (L : Lib) (o : Dump.Opts) (lo hi : ℝ) : Prop :=
  (∃ a b, o.xRange = a ++ ',' :: b ∧ ',' ∉ a ∧ ',' ∉ b ∧ L.float a = some lo ∧ L.float b = some hi) ∨
  (o.xRange = [] ∧ o.tValue = [] ∧ lo = 0 ∧ hi = 1) ∨
  (o.xRange = [] ∧ o.tValue ≠ [] ∧ lo = -10 ∧ hi = 10)

/-- The option `--hypo <file>:<index>` names the entry `d`: the one at this place in the file, counted from the
end if the index is negative. -/
def HypoIs (E : Dump.Env) (o : Dump.Opts) (d : PLRData) : Prop :=
  ∃ f i ds k, o.hypo = f ++ ':' :: i ∧ ':' ∉ f ∧ ':' ∉ i ∧ E.raster f = .ok ds ∧ E.lib.int i = some k ∧
    ∃ n : ℕ, ds[n]? = some d ∧ (k = n ∨ k = (n : Int) - ds.length)

theorem splitOn_ne_nil (c : Char) (s : Str) : s.splitOn c ≠ [] := by
  by_cases h : c ∈ s
  · obtain ⟨x, y, rfl, hx⟩ := List.eq_append_cons_of_mem h
    rw [List.splitOn_append_cons_self_of_not_mem hx]; simp
  · rw [List.splitOn_eq_singleton h]; simp

theorem splitOn_one {c : Char} {s b : Str} (h : s.splitOn c = [b]) : s = b ∧ c ∉ s := by
  by_cases hc : c ∈ s
  · obtain ⟨x, y, rfl, hx⟩ := List.eq_append_cons_of_mem hc
    rw [List.splitOn_append_cons_self_of_not_mem hx] at h
    exact absurd (List.cons.inj h).2 (splitOn_ne_nil c y)
  · rw [List.splitOn_eq_singleton hc] at h
    exact ⟨(List.cons.inj h).1, hc⟩

theorem splitOn_two {c : Char} {s a b : Str} (h : s.splitOn c = [a, b]) :
    s = a ++ c :: b ∧ c ∉ a ∧ c ∉ b := by
  by_cases hc : c ∈ s
  · obtain ⟨x, y, rfl, hx⟩ := List.eq_append_cons_of_mem hc
    rw [List.splitOn_append_cons_self_of_not_mem hx] at h
    obtain ⟨h1, h2⟩ := List.cons.inj h
    obtain ⟨h3, h4⟩ := splitOn_one h2
    subst h1 h3
    exact ⟨rfl, hx, h4⟩
  · rw [List.splitOn_eq_singleton hc] at h
    cases (List.cons.inj h).2

theorem splitOn_of_two {c : Char} {a b : Str} (ha : c ∉ a) (hb : c ∉ b) : (a ++ c :: b).splitOn c = [a, b] := by
  rw [List.splitOn_append_cons_self_of_not_mem ha, List.splitOn_eq_singleton hb]

theorem axis_iff (L : Lib) (o : Dump.Opts) (r : ℝ × ℝ) : Dump.xRange L o = .ok r ↔ AxisIs L o r.1 r.2 := by
  unfold Dump.xRange AxisIs
  by_cases h : o.xRange = []
  · rw [if_neg (not_not.2 h), h]
    have : ∀ a b : Str, ¬ ([] : Str) = a ++ ',' :: b := by intro a b hh; simp at hh
    by_cases h2 : o.tValue = []
    · rw [if_pos h2]
      constructor
      · intro hh; cases Except.ok.inj (ε := PyErr) hh; exact Or.inr (Or.inl ⟨rfl, h2, rfl, rfl⟩)
      · rintro (⟨a, b, hh, _⟩ | ⟨_, _, h3, h4⟩ | ⟨_, h3, _⟩)
        · exact absurd hh (this a b)
        · rw [← h3, ← h4]
        · exact absurd h2 h3
    · rw [if_neg h2]
      constructor
      · intro hh; cases Except.ok.inj (ε := PyErr) hh; exact Or.inr (Or.inr ⟨rfl, h2, rfl, rfl⟩)
      · rintro (⟨a, b, hh, _⟩ | ⟨_, h3, _⟩ | ⟨_, _, h3, h4⟩)
        · exact absurd hh (this a b)
        · exact absurd h3 h2
        · rw [← h3, ← h4]
  · rw [if_pos h]
    unfold Dump.parseRange
    constructor
    · intro hh
      split at hh
      · rename_i a b hs
        split at hh
        · rename_i x y h1 h2
          cases Except.ok.inj (ε := PyErr) hh
          obtain ⟨e1, e2, e3⟩ := splitOn_two hs
          exact Or.inl ⟨a, b, e1, e2, e3, h1, h2⟩
        · cases hh
      · cases hh
    · rintro (⟨a, b, e1, e2, e3, h1, h2⟩ | ⟨h1, _⟩ | ⟨h1, _⟩)
      · rw [e1, splitOn_of_two e2 e3]
        dsimp only
        rw [h1, h2]
      · exact absurd h1 h
      · exact absurd h1 h

theorem axis_error (L : Lib) (o : Dump.Opts) (h : ¬ ∃ lo hi, AxisIs L o lo hi) : Dump.xRange L o = .error .valueError := by
  rcases hx : Dump.xRange L o with e | r
  · congr 1
    unfold Dump.xRange at hx
    split at hx
    · unfold Dump.parseRange at hx
      split at hx
      · split at hx
        · cases hx
        · exact (Except.error.inj hx).symm
      · exact (Except.error.inj hx).symm
    · split at hx <;> cases hx
  · exact absurd ⟨_, _, (axis_iff L o r).1 hx⟩ h

theorem pyIndex_ok {α : Type} (l : List α) (k : Int) (d : α) :
    pyIndex l k = .ok d ↔ ∃ n : ℕ, l[n]? = some d ∧ (k = n ∨ k = (n : Int) - l.length) := by
  unfold pyIndex
  constructor
  · intro h
    by_cases h1 : k < -(l.length : Int)
    · rw [if_pos h1] at h; cases h
    · rw [if_neg h1] at h
      split at h
      · rename_i x hx
        cases Except.ok.inj (ε := PyErr) h
        refine ⟨_, hx, ?_⟩
        by_cases h2 : k < 0
        · rw [if_pos h2]; right; omega
        · rw [if_neg h2]; left; omega
      · cases h
  · rintro ⟨n, hn, hk⟩
    have hlt : n < l.length := (List.getElem?_eq_some_iff.1 hn).1
    rw [if_neg (by omega)]
    have : (if k < 0 then (l.length : Int) + k else k).toNat = n := by
      by_cases h2 : k < 0
      · rw [if_pos h2]; omega
      · rw [if_neg h2]; omega
    rw [this, hn]

theorem readHypo_iff (E : Dump.Env) (o : Dump.Opts) (d : PLRData) : readHypo E o.hypo = .ok d ↔ HypoIs E o d := by
  unfold readHypo
  constructor
  · intro h
    obtain ⟨⟨f, i⟩, h1, h⟩ := bind_eq_ok.1 h
    obtain ⟨k, h2, h⟩ := bind_eq_ok.1 h
    obtain ⟨ds, h3, h⟩ := bind_eq_ok.1 h
    have hs : o.hypo.splitOn ':' = [f, i] := by
      unfold Cmd.unpack2 at h1
      split at h1
      · rename_i a b hh
        cases Except.ok.inj (ε := PyErr) h1
        exact hh
      · cases h1
    obtain ⟨e1, e2, e3⟩ := splitOn_two hs
    refine ⟨f, i, ds, k, e1, e2, e3, h3, ?_, (pyIndex_ok ds k d).1 h⟩
    unfold toInt at h2
    dsimp only at h2
    split at h2
    · rename_i x hx; cases Except.ok.inj (ε := PyErr) h2; exact hx
    · cases h2
  · rintro ⟨f, i, ds, k, e1, e2, e3, h3, h2, h⟩
    rw [e1, splitOn_of_two e2 e3]
    simp only [Cmd.unpack2, bind_ok, toInt, h2, h3]
    exact (pyIndex_ok ds k d).2 h

/-- The stored entry that is used. -/
theorem hypoData_iff (E : Dump.Env) (o : Dump.Opts) (d : PLRData) :
    hypoData E o = .ok (some d) ↔ E.model = .ok true ∧ HypoIs E o d := by
  unfold hypoData
  by_cases h : o.hypo = []
  · rw [if_pos h]
    constructor
    · intro hh; cases Except.ok.inj (ε := PyErr) hh
    · rintro ⟨_, f, i, ds, k, e1, _⟩
      rw [h] at e1; simp at e1
  · rw [if_neg h]
    constructor
    · intro hh
      obtain ⟨b, h1, hh⟩ := bind_eq_ok.1 hh
      cases b
      · simp at hh
      · rw [if_pos rfl] at hh
        rcases hr : readHypo E o.hypo with e | d'
        · rw [hr] at hh; cases hh
        · rw [hr] at hh
          cases Except.ok.inj (ε := PyErr) hh
          exact ⟨h1, (readHypo_iff E o _).1 hr⟩
    · rintro ⟨h1, h2⟩
      rw [h1, bind_ok, if_pos rfl, (readHypo_iff E o d).2 h2]

/-- C90, the options: what the script needs for drawing anything. -/
theorem c90_needs (E : Dump.Env) (o : Dump.Opts) (p : Plot) (h : Dump.run E o = .ok p) :
    (∃ lo hi, AxisIs E.lib o lo hi ∧ lo ≤ hi) ∧ 1 ≤ o.nbins ∧
    (o.tValue = "q_mu".toList ∨ o.tValue = "q~mu".toList → ∃ d, HypoIs E o d) ∧
    (o.hypo ≠ [] → ∃ d, HypoIs E o d) := by
  obtain ⟨r, d, s, hh, h1, h2, h3, h4, _⟩ := run_ok h
  obtain ⟨g1, g2, _⟩ := hist_ok h4
  have hd : ∀ d', d = some d' → HypoIs E o d' := fun d' e => ((hypoData_iff E o d').1 (e ▸ h2)).2
  refine ⟨⟨r.1, r.2, (axis_iff _ _ r).1 h1, g2⟩, g1, fun ht => ?_, fun ht => ?_⟩
  · cases d with
    | some d => exact ⟨d, hd d rfl⟩
    | none =>
      exfalso
      unfold shown at h3
      rcases ht with ht | ht
      · rw [if_pos ht] at h3; cases h3
      · rw [if_neg (by rw [ht]; decide), if_pos ht] at h3; cases h3
  · cases d with
    | some d => exact ⟨d, hd d rfl⟩
    | none =>
      exfalso
      unfold hypoData at h2
      rw [if_neg ht] at h2
      obtain ⟨b, _, h2⟩ := bind_eq_ok.1 h2
      cases b
      · simp at h2
      · rw [if_pos rfl] at h2
        rcases hr : readHypo E o.hypo with e | d'
        · rw [hr] at h2; cases h2
        · rw [hr] at h2; cases Except.ok.inj (ε := PyErr) h2

/-- C90, the options: what is missing is reported as a `ValueError`: a range that is not two numbers; a hypothesis
that is not a place of the raster; no hypothesis for `q_mu` or `q~mu`; an upside-down range or a number of bins
below one, when the p-values are drawn. -/
theorem c90_refused (E : Dump.Env) (o : Dump.Opts) (hm : E.model = .ok true)
    (h : (¬ ∃ lo hi, AxisIs E.lib o lo hi) ∨ (o.hypo ≠ [] ∧ ¬ ∃ d, HypoIs E o d) ∨
      ((o.tValue = "q_mu".toList ∨ o.tValue = "q~mu".toList) ∧ o.hypo = []) ∨
      (o.tValue = [] ∧ (o.nbins < 1 ∨ ∃ lo hi, AxisIs E.lib o lo hi ∧ hi < lo))) :
    Dump.run E o = .error .valueError := by
  unfold Dump.run
  rcases hx : Dump.xRange E.lib o with e | r
  · have : e = .valueError := by
      by_cases hex : ∃ lo hi, AxisIs E.lib o lo hi
      · obtain ⟨lo, hi, ha⟩ := hex
        rw [(axis_iff E.lib o (lo, hi)).2 ha] at hx; cases hx
      · rw [axis_error E.lib o hex] at hx; exact (Except.error.inj hx).symm
    rw [this]; rfl
  · rw [bind_ok]
    have hax := (axis_iff _ _ r).1 hx
    rcases hh : hypoData E o with e | d
    · have : e = .valueError := by
        unfold hypoData at hh
        split at hh
        · cases hh
        · rw [hm, bind_ok, if_pos rfl] at hh
          split at hh
          · cases hh
          · exact (Except.error.inj hh).symm
      rw [this]; rfl
    · rw [bind_ok]
      rcases h with h | ⟨h1, h2⟩ | ⟨h1, h2⟩ | ⟨h1, h2⟩
      · exact absurd ⟨_, _, hax⟩ h
      · exfalso
        cases d with
        | some d => exact h2 ⟨d, ((hypoData_iff E o d).1 hh).2⟩
        | none =>
          unfold hypoData at hh
          rw [if_neg h1, hm, bind_ok, if_pos rfl] at hh
          split at hh <;> cases hh
      · have hd : d = none := by
          unfold hypoData at hh
          rw [if_pos h2] at hh; exact (Except.ok.inj (ε := PyErr) hh).symm
        subst hd
        have : shown E.samples none o = .error .valueError := by
          unfold shown
          rcases h1 with h1 | h1
          · rw [if_pos h1]
          · rw [if_neg (by rw [h1]; decide), if_pos h1]
        rw [this]; rfl
      · have hs : shown E.samples d o = .ok (E.samples, none) := by
          unfold shown
          rw [if_neg (by rw [h1]; decide), if_neg (by rw [h1]; decide)]
        rw [hs, bind_ok]
        have : histogram E.samples o.nbins r.1 r.2 = .error .valueError := by
          unfold histogram
          rw [if_pos]
          refine h2.imp id ?_
          rintro ⟨lo, hi, ha, hlt⟩
          have := (axis_iff E.lib o (lo, hi)).2 ha
          rw [hx] at this
          cases Except.ok.inj (ε := PyErr) this
          exact hlt
        rw [this]; rfl

/-- C90, the histogram: equal bins from one end of the axis to the other; a bin counts the values from its lower
edge up to but not including its upper edge, which counts in the last bin; together the bins hold exactly the values
on the axis. -/
theorem c90_bins (E : Dump.Env) (o : Dump.Opts) (p : Plot) (h : Dump.run E o = .ok p) (lo hi : ℝ)
    (ha : AxisIs E.lib o lo hi) (hlt : lo < hi) :
    ∃ n : ℕ, o.nbins = n ∧ p.edges.length = n + 1 ∧ p.counts.length = n ∧
      p.edges[0]? = some lo ∧ p.edges[n]? = some hi ∧
      (∀ (i : ℕ) (a b : ℝ), p.edges[i]? = some a → p.edges[i + 1]? = some b → b - a = (hi - lo) / n ∧
        (i + 1 < n → p.counts[i]? = some (p.values.countP fun v => decide (a ≤ v) && decide (v < b))) ∧
        (i + 1 = n → p.counts[i]? = some (p.values.countP fun v => decide (a ≤ v) && decide (v ≤ b)))) ∧
      p.counts.sum = p.values.countP fun v => decide (lo ≤ v) && decide (v ≤ hi) := by
  obtain ⟨r, d, s, hh, h1, h2, h3, h4, _, e1, e2, e3⟩ := run_ok h
  rw [(axis_iff E.lib o (lo, hi)).2 ha] at h1
  cases Except.ok.inj (ε := PyErr) h1
  obtain ⟨g1, _, g3⟩ := hist_ok h4
  obtain ⟨g3, g4⟩ := g3 hlt
  dsimp only at g3 g4
  obtain ⟨n, hn⟩ : ∃ n : ℕ, o.nbins = n := ⟨o.nbins.toNat, by omega⟩
  rw [hn] at g3 g4 g1
  have hpos : 0 < n := by omega
  simp only [Int.toNat_natCast] at g3 g4
  rw [e1, e2, e3, g3, g4]
  refine ⟨n, hn, by simp, by simp, ?_, ?_, ?_, ?_⟩
  · simp [edge_zero]
  · simp [edge_last _ _ _ hpos]
  · intro i a b hia hib
    obtain ⟨hi1, hib⟩ := List.getElem?_eq_some_iff.1 hib
    obtain ⟨hi0, hia⟩ := List.getElem?_eq_some_iff.1 hia
    simp only [List.getElem_map, List.getElem_range] at hia hib
    simp only [List.length_map, List.length_range] at hi1
    refine ⟨by rw [← hia, ← hib, edge_succ]; ring, fun hl => ?_, fun hl => ?_⟩
    all_goals
      rw [List.getElem?_eq_getElem (by simp; omega)]
      simp only [List.getElem_map, List.getElem_range]
      congr 1
      unfold content
      rw [hia, hib]
      refine List.countP_congr fun v _ => ?_
      simp only [decide_eq_true_eq, Bool.and_eq_true]
    · constructor
      · rintro ⟨x, y | ⟨y, _⟩⟩
        · exact ⟨x, y⟩
        · omega
      · rintro ⟨x, y⟩; exact ⟨x, Or.inl y⟩
    · constructor
      · rintro ⟨x, y | ⟨_, y⟩⟩
        · exact ⟨x, y.le⟩
        · exact ⟨x, y.le⟩
      · rintro ⟨x, y⟩; exact ⟨x, y.lt_or_eq.imp id fun e => ⟨hl, e⟩⟩
  · rw [content_sum _ _ _ _ hlt hpos]
    refine List.countP_congr fun v _ => ?_
    simp

theorem makeQMu_ncp {d : PLRData} {q : QMu} (h : makeQMu d = .ok q) : q.ncp = .ok 0 := by
  unfold makeQMu at h
  obtain ⟨_, _, h⟩ := bind_eq_ok.1 h
  obtain ⟨_, _, h⟩ := bind_eq_ok.1 h
  obtain ⟨_, _, h⟩ := bind_eq_ok.1 h
  obtain ⟨_, _, h⟩ := bind_eq_ok.1 h
  obtain ⟨_, _, h⟩ := bind_eq_ok.1 h
  cases Except.ok.inj (ε := PyErr) h
  simp [QMu.ncp, QMu.init]

theorem makeQMuTilda_ncp {d : PLRData} {q : QMuTilda} (h : makeQMuTilda d = .ok q) :
    q.ncp = .ok 0 ∧ ∃ a, d.testStats.getItem "tmu_A0" = .ok a ∧ q.threshold = .ok (if a < 0 then 0 else a) := by
  unfold makeQMuTilda at h
  obtain ⟨_, _, h⟩ := bind_eq_ok.1 h
  obtain ⟨_, _, h⟩ := bind_eq_ok.1 h
  obtain ⟨_, _, h⟩ := bind_eq_ok.1 h
  obtain ⟨_, _, h⟩ := bind_eq_ok.1 h
  obtain ⟨a, ha, h⟩ := bind_eq_ok.1 h
  cases Except.ok.inj (ε := PyErr) h
  refine ⟨?_, a, ha, ?_⟩
  · simp [QMu.ncp, QMuTilda.init, QMu.init]
  · simp [QMuTilda.threshold, QMuTilda.init]

/-- What is drawn for `q_mu`. -/
theorem shown_qmu {E : Dump.Env} {o : Dump.Opts} {d : Option PLRData} {s} (h2 : hypoData E o = .ok d)
    (h3 : shown E.samples d o = .ok s) (ht : o.tValue = "q_mu".toList) :
    ∃ d' q, HypoIs E o d' ∧ makeQMu d' = .ok q ∧ E.samples.mapM (convert q.asymptoticTs) = .ok s.1 ∧
      s.2 = some fun t => q.asymptoticPdf (some t) := by
  unfold shown at h3
  rw [if_pos ht] at h3
  cases d with
  | none => cases h3
  | some d =>
    dsimp only at h3
    obtain ⟨q, hq, h3⟩ := bind_eq_ok.1 h3
    obtain ⟨vs, hv, h3⟩ := bind_eq_ok.1 h3
    cases Except.ok.inj (ε := PyErr) h3
    exact ⟨d, q, ((hypoData_iff E o d).1 h2).2, hq, hv, rfl⟩

theorem shown_qmutilda {E : Dump.Env} {o : Dump.Opts} {d : Option PLRData} {s} (h2 : hypoData E o = .ok d)
    (h3 : shown E.samples d o = .ok s) (ht : o.tValue = "q~mu".toList) :
    ∃ d' q, HypoIs E o d' ∧ makeQMuTilda d' = .ok q ∧ E.samples.mapM (convert q.asymptoticTs) = .ok s.1 ∧
      s.2 = some fun t => q.asymptoticPdf (some t) := by
  unfold shown at h3
  rw [if_neg (by rw [ht]; decide), if_pos ht] at h3
  cases d with
  | none => cases h3
  | some d =>
    dsimp only at h3
    obtain ⟨q, hq, h3⟩ := bind_eq_ok.1 h3
    obtain ⟨vs, hv, h3⟩ := bind_eq_ok.1 h3
    cases Except.ok.inj (ε := PyErr) h3
    exact ⟨d, q, ((hypoData_iff E o d).1 h2).2, hq, hv, rfl⟩

theorem shown_pv {E : Dump.Env} {o : Dump.Opts} {d : Option PLRData} {s}
    (h3 : shown E.samples d o = .ok s) (h1 : o.tValue ≠ "q_mu".toList) (h2 : o.tValue ≠ "q~mu".toList) :
    s = (E.samples, none) := by
  unfold shown at h3
  rw [if_neg h1, if_neg h2] at h3
  exact (Except.ok.inj (ε := PyErr) h3).symm

theorem convert_ok {f : ℝ → Except PyErr ℝ} {p v : ℝ} (h : convert f p = .ok v) : 0 < p ∧ p < 1 ∧ f p = .ok v := by
  unfold convert at h
  split at h
  · rename_i hc; exact ⟨hc.1, hc.2, h⟩
  · cases h

/-- C90, `q_mu`: the values drawn are the values of the statistic whose asymptotic p-values are the stored ones, for
the hypothesis of the option. -/
theorem c90_qmu_values (E : Dump.Env) (o : Dump.Opts) (p : Plot) (h : Dump.run E o = .ok p)
    (ht : o.tValue = "q_mu".toList) :
    ∃ d q, HypoIs E o d ∧ makeQMu d = .ok q ∧
      List.Forall₂ (fun pv v => q.asymptoticPv (some v) = .ok pv) E.samples p.values := by
  obtain ⟨r, d, s, hh, h1, h2, h3, h4, _, e1, e2, e3⟩ := run_ok h
  obtain ⟨d', q, hd, hq, hv, _⟩ := shown_qmu h2 h3 ht
  refine ⟨d', q, hd, hq, ?_⟩
  rw [e1]
  refine (mapM_ok_iff.1 hv).imp fun {pv v} hc => ?_
  obtain ⟨c0, c1, c2⟩ := convert_ok hc
  obtain ⟨t, ht1, ht2⟩ := (c25_qmu_inverse q 0 (makeQMu_ncp hq)).1 pv c0 c1
  rw [c2] at ht1
  cases Except.ok.inj (ε := PyErr) ht1
  exact ht2

/-- C90, `q~mu`: the same, except for the p-values whose normal quantile lies between the threshold and its square
root (F17): there the value drawn has another p-value. -/
theorem c90_qmutilda_values (E : Dump.Env) (o : Dump.Opts) (p : Plot) (h : Dump.run E o = .ok p)
    (ht : o.tValue = "q~mu".toList) :
    ∃ d q a, HypoIs E o d ∧ makeQMuTilda d = .ok q ∧ d.testStats.getItem "tmu_A0" = .ok a ∧
      (0 < a → List.Forall₂ (fun pv v => q.asymptoticPv (some v) = .ok pv ↔
        ¬ ((Real.sqrt a < normIsf pv ∧ normIsf pv < a) ∨ (a ≤ normIsf pv ∧ normIsf pv < Real.sqrt a)))
        E.samples p.values) := by
  obtain ⟨r, d, s, hh, h1, h2, h3, h4, _, e1, e2, e3⟩ := run_ok h
  obtain ⟨d', q, hd, hq, hv, _⟩ := shown_qmutilda h2 h3 ht
  obtain ⟨hn, a, ha, hT⟩ := makeQMuTilda_ncp hq
  refine ⟨d', q, a, hd, hq, ha, fun hpos => ?_⟩
  rw [if_neg (by linarith)] at hT
  rw [e1]
  refine (mapM_ok_iff.1 hv).imp fun {pv v} hc => ?_
  obtain ⟨c0, c1, c2⟩ := convert_ok hc
  have := c25_qmutilda_inverse_iff q 0 a pv hn hT hpos c0 c1
  simp only [Real.sqrt_zero, add_zero] at this
  rw [← this]
  constructor
  · intro hh; exact ⟨v, c2, hh⟩
  · rintro ⟨t, t1, t2⟩
    rw [c2] at t1
    cases Except.ok.inj (ε := PyErr) t1
    exact t2

theorem qmu_density (q : QMu) (l : ℝ) (h : q.ncp = .ok l) :
    ∃ g : ℝ → ℝ, (∀ t, q.asymptoticPdf (some t) = .ok (g t)) ∧ (∀ t, 0 ≤ g t) ∧
      ∀ t, t ≠ 0 → HasDerivAt (fun u => normSf (signedSqrt u - Real.sqrt l)) (-(g t)) t := by
  refine ⟨fun t => if t ≠ 0 then normPdf (signedSqrt t - Real.sqrt l) / 2 / Real.sqrt |t| else 0, fun t => ?_,
    fun t => ?_, fun t ht => ?_⟩
  · simp [QMu.asymptoticPdf, h]
  · dsimp only
    split
    · have := normPdf_pos (signedSqrt t - Real.sqrt l); positivity
    · exact le_rfl
  · obtain ⟨d, hd1, hd2⟩ := c46_qmu_pdf q l h _ (fun u => QMu.pv_eq q l u h) t ht
    have : d = if t ≠ 0 then normPdf (signedSqrt t - Real.sqrt l) / 2 / Real.sqrt |t| else 0 := by
      simp [QMu.asymptoticPdf, h] at hd1
      simp [← hd1]
    dsimp only
    rw [← this]; exact hd2

theorem qmutilda_density (q : QMuTilda) (l T : ℝ) (h : q.ncp = .ok l) (hT : q.threshold = .ok T) (hpos : 0 < T) :
    ∃ g : ℝ → ℝ, (∀ t, q.asymptoticPdf (some t) = .ok (g t)) ∧ (∀ t, 0 ≤ g t) ∧
      ∀ t, t ≠ 0 → HasDerivAt (fun u => normSf (tildeArg T u - Real.sqrt l)) (-(g t)) t := by
  have hall : ∀ t, ∃ v, q.asymptoticPdf (some t) = .ok v ∧ 0 ≤ v := by
    intro t
    unfold QMuTilda.asymptoticPdf
    rw [hT, bind_ok]
    simp only [Option.getD_some]
    by_cases ht : t < T
    · rw [if_pos ht]
      obtain ⟨g, g1, g2, _⟩ := qmu_density q.toQMu l h
      exact ⟨g t, g1 t, g2 t⟩
    · rw [if_neg ht, if_neg hpos.ne', h]
      refine ⟨_, rfl, ?_⟩
      have := normPdf_pos ((t + T) / (2 * Real.sqrt T) - Real.sqrt l)
      positivity
  choose g g1 g2 using hall
  refine ⟨g, g1, g2, fun t ht => ?_⟩
  obtain ⟨d, hd1, hd2⟩ := c46_qmutilda_pdf q l T h hT hpos _ (fun u => QMuTilda.pv_eq q l T u h hT hpos) t ht
  rw [g1 t] at hd1
  cases Except.ok.inj (ε := PyErr) hd1
  exact hd2

/-- C46, the density integrates to differences of the p-value: the probability that `q_mu` lies in an interval,
as the density gives it, is the difference of the p-values of its ends. -/
theorem c46_qmu_integral (s : QMu) (l : ℝ) (h : s.ncp = .ok l) (a b pa pb : ℝ) (hab : a ≤ b)
    (ha : s.asymptoticPv (some a) = .ok pa) (hb : s.asymptoticPv (some b) = .ok pb) :
    ∃ g : ℝ → ℝ, (∀ t, s.asymptoticPdf (some t) = .ok (g t)) ∧ (∀ t, 0 ≤ g t) ∧
      IntervalIntegrable g volume a b ∧ ∫ t in a..b, g t = pa - pb := by
  obtain ⟨g, g1, g2, g3⟩ := qmu_density s l h
  rw [QMu.pv_eq s l _ h] at ha hb
  cases Except.ok.inj (ε := PyErr) ha
  cases Except.ok.inj (ε := PyErr) hb
  have hc : Continuous fun u => normSf (signedSqrt u - Real.sqrt l) :=
    normSf_continuous.comp (signedSqrt_continuous.sub continuous_const)
  exact ⟨g, g1, g2, density_integral hc g2 g3 hab⟩

/-- C46, the same for `q~mu` with a positive threshold. -/
theorem c46_qmutilda_integral (s : QMuTilda) (l T : ℝ) (h : s.ncp = .ok l) (hT : s.threshold = .ok T) (hpos : 0 < T)
    (a b pa pb : ℝ) (hab : a ≤ b)
    (ha : s.asymptoticPv (some a) = .ok pa) (hb : s.asymptoticPv (some b) = .ok pb) :
    ∃ g : ℝ → ℝ, (∀ t, s.asymptoticPdf (some t) = .ok (g t)) ∧ (∀ t, 0 ≤ g t) ∧
      IntervalIntegrable g volume a b ∧ ∫ t in a..b, g t = pa - pb := by
  obtain ⟨g, g1, g2, g3⟩ := qmutilda_density s l T h hT hpos
  rw [QMuTilda.pv_eq s l T _ h hT hpos] at ha hb
  cases Except.ok.inj (ε := PyErr) ha
  cases Except.ok.inj (ε := PyErr) hb
  have hc : Continuous fun u => normSf (tildeArg T u - Real.sqrt l) :=
    normSf_continuous.comp ((tildeArg_continuous T hpos).sub continuous_const)
  exact ⟨g, g1, g2, density_integral hc g2 g3 hab⟩

/-- The points of the reference curve are in the middle of the bins, with these heights. -/
def CurveIs (p : Plot) (height : ℝ → ℝ → ℝ → Prop) : Prop :=
  ∃ l, p.ref = some l ∧ l.length + 1 = p.edges.length ∧
    ∀ (i : ℕ) (a b : ℝ), p.edges[i]? = some a → p.edges[i + 1]? = some b →
      ∃ y, l[i]? = some ((a + b) / 2, y) ∧ height a b y

theorem curve_of {E : Dump.Env} {o : Dump.Opts} {p : Plot} {lo hi : ℝ} (hlt : lo < hi) {vs : List ℝ}
    {pdf : Option (ℝ → Except PyErr ℝ)} {hh} (h4 : histogram vs o.nbins lo hi = .ok hh)
    (h5 : optReference o E.samples.length pdf lo hi = .ok p.ref) (e2 : p.edges = hh.1) (hr : o.reference = true)
    (height : ℝ → ℝ → ℝ → Prop) (Y : ℝ → ℝ → ℝ) (hY : ∀ a b, height a b (Y a b))
    (hS : ∀ F, pdf = some F → ∀ a b, a ≤ b → ∃ v, quad F a b = .ok v ∧ Y a b = E.samples.length * v)
    (hN : pdf = none → ∀ a b, Y a b = E.samples.length * (b - a)) : CurveIs p height := by
  obtain ⟨g1, _, g3⟩ := hist_ok h4
  obtain ⟨g3, g4⟩ := g3 hlt
  obtain ⟨n, hn⟩ : ∃ n : ℕ, o.nbins = n := ⟨o.nbins.toNat, by omega⟩
  rw [hn] at g3 g1
  have hpos : 0 < n := by omega
  simp only [Int.toNat_natCast] at g3
  unfold optReference at h5
  rw [if_pos hr] at h5
  obtain ⟨l, hl, h5⟩ := bind_eq_ok.1 h5
  have h5 := Except.ok.inj (ε := PyErr) h5
  rw [hn, reference_eq E.samples.length pdf n hpos lo hi (fun i => Y (edge lo hi n i) (edge lo hi n (i + 1)))
    (fun F hF i => hS F hF _ _ ((edge_mono lo hi n hlt hpos).monotone (Nat.le_succ i)))
    (fun hp i => by rw [hN hp, edge_succ]; ring)] at hl
  have hl := Except.ok.inj (ε := PyErr) hl
  refine ⟨l, h5.symm, by rw [← hl, e2, g3]; simp, ?_⟩
  intro i a b hia hib
  rw [e2, g3] at hia hib
  obtain ⟨hi1, hib⟩ := List.getElem?_eq_some_iff.1 hib
  obtain ⟨hi0, hia⟩ := List.getElem?_eq_some_iff.1 hia
  simp only [List.getElem_map, List.getElem_range] at hia hib
  simp only [List.length_map, List.length_range] at hi1
  refine ⟨Y a b, ?_, hY a b⟩
  rw [← hl, List.getElem?_eq_getElem (by simp; omega)]
  simp only [List.getElem_map, List.getElem_range]
  rw [hia, hib]

/-- C90, the reference for `q_mu`: in each bin the number of samples times the difference of the p-values of its
edges. -/
theorem c90_qmu_reference (E : Dump.Env) (o : Dump.Opts) (p : Plot) (h : Dump.run E o = .ok p)
    (ht : o.tValue = "q_mu".toList) (hr : o.reference = true) (lo hi : ℝ) (ha : AxisIs E.lib o lo hi) (hlt : lo < hi) :
    ∃ d q, HypoIs E o d ∧ makeQMu d = .ok q ∧ CurveIs p fun a b y => ∃ pa pb,
      q.asymptoticPv (some a) = .ok pa ∧ q.asymptoticPv (some b) = .ok pb ∧ y = E.samples.length * (pa - pb) := by
  obtain ⟨r, d, s, hh, h1, h2, h3, h4, h5, e1, e2, e3⟩ := run_ok h
  rw [(axis_iff E.lib o (lo, hi)).2 ha] at h1
  cases Except.ok.inj (ε := PyErr) h1
  obtain ⟨d', q, hd, hq, hv, hs⟩ := shown_qmu h2 h3 ht
  refine ⟨d', q, hd, hq, ?_⟩
  have hn := makeQMu_ncp hq
  have hc : Continuous fun u => normSf (signedSqrt u - Real.sqrt 0) :=
    normSf_continuous.comp (signedSqrt_continuous.sub continuous_const)
  obtain ⟨g, g1, g2, g3⟩ := qmu_density q 0 hn
  refine curve_of (E := E) (p := p) hlt h4 h5 e2 hr _
    (fun a b => E.samples.length * (normSf (signedSqrt a - Real.sqrt 0) - normSf (signedSqrt b - Real.sqrt 0)))
    (fun a b => ⟨_, _, QMu.pv_eq q 0 a hn, QMu.pv_eq q 0 b hn, rfl⟩) (fun F hF a b hab => ?_) (fun hF => ?_)
  · rw [hs] at hF
    cases Option.some.inj hF
    exact ⟨_, quad_eq g1 hc g2 g3 hab, rfl⟩
  · rw [hs] at hF; cases hF

/-- C90, the reference for `q~mu`: the same. -/
theorem c90_qmutilda_reference (E : Dump.Env) (o : Dump.Opts) (p : Plot) (h : Dump.run E o = .ok p)
    (ht : o.tValue = "q~mu".toList) (hr : o.reference = true) (lo hi : ℝ) (ha : AxisIs E.lib o lo hi) (hlt : lo < hi) :
    ∃ d q c, HypoIs E o d ∧ makeQMuTilda d = .ok q ∧ d.testStats.getItem "tmu_A0" = .ok c ∧
      (0 < c → CurveIs p fun a b y => ∃ pa pb, q.asymptoticPv (some a) = .ok pa ∧
        q.asymptoticPv (some b) = .ok pb ∧ y = E.samples.length * (pa - pb)) := by
  obtain ⟨r, d, s, hh, h1, h2, h3, h4, h5, e1, e2, e3⟩ := run_ok h
  rw [(axis_iff E.lib o (lo, hi)).2 ha] at h1
  cases Except.ok.inj (ε := PyErr) h1
  obtain ⟨d', q, hd, hq, hv, hs⟩ := shown_qmutilda h2 h3 ht
  obtain ⟨hn, c, hcc, hT⟩ := makeQMuTilda_ncp hq
  refine ⟨d', q, c, hd, hq, hcc, fun hpos => ?_⟩
  rw [if_neg (by linarith)] at hT
  have hc : Continuous fun u => normSf (tildeArg c u - Real.sqrt 0) :=
    normSf_continuous.comp ((tildeArg_continuous c hpos).sub continuous_const)
  obtain ⟨g, g1, g2, g3⟩ := qmutilda_density q 0 c hn hT hpos
  refine curve_of (E := E) (p := p) hlt h4 h5 e2 hr _
    (fun a b => E.samples.length * (normSf (tildeArg c a - Real.sqrt 0) - normSf (tildeArg c b - Real.sqrt 0)))
    (fun a b => ⟨_, _, QMuTilda.pv_eq q 0 c a hn hT hpos, QMuTilda.pv_eq q 0 c b hn hT hpos, rfl⟩)
    (fun F hF a b hab => ?_) (fun hF => ?_)
  · rw [hs] at hF
    cases Option.some.inj hF
    exact ⟨_, quad_eq g1 hc g2 g3 hab, rfl⟩
  · rw [hs] at hF; cases hF

/-- C90, p-values: without `--t-value` the stored values are drawn as they are, and the reference is the number of
samples times the width of the bin. -/
theorem c90_pv (E : Dump.Env) (o : Dump.Opts) (p : Plot) (h : Dump.run E o = .ok p)
    (h1 : o.tValue ≠ "q_mu".toList) (h2 : o.tValue ≠ "q~mu".toList) :
    p.values = E.samples ∧ (o.reference = true → ∀ lo hi, AxisIs E.lib o lo hi → lo < hi →
      CurveIs p fun a b y => y = E.samples.length * (b - a)) := by
  obtain ⟨r, d, s, hh, g1, g2, g3, g4, g5, e1, e2, e3⟩ := run_ok h
  cases shown_pv g3 h1 h2
  refine ⟨e1, fun hr lo hi ha hlt => ?_⟩
  rw [(axis_iff E.lib o (lo, hi)).2 ha] at g1
  cases Except.ok.inj (ε := PyErr) g1
  exact curve_of (E := E) (p := p) hlt g4 g5 e2 hr _ (fun a b => E.samples.length * (b - a)) (fun _ _ => rfl)
    (fun F hF => by cases hF) (fun _ _ _ => rfl)

section expected
open ProbabilityTheory Classical
variable {Ω : Type} [MeasurableSpace Ω] {Pr : Measure Ω}

theorem countP_rel {R : ℝ → ℝ → Prop} {xs ys : List ℝ} (h : List.Forall₂ R xs ys) (p q : ℝ → Bool)
    (hpq : ∀ x y, R x y → (p x = q y)) : ys.countP q = xs.countP p := by
  induction h with
  | nil => rfl
  | cons hr _ ih => rw [List.countP_cons, List.countP_cons, ih, hpq _ _ hr]

theorem countP_ofFn {N : ℕ} (f : Fin N → ℝ) (p : ℝ → Bool) :
    ((List.ofFn f).countP p : ENNReal) = ∑ j, if p (f j) then 1 else 0 := by
  induction N with
  | zero => simp
  | succ n ih =>
    rw [List.ofFn_succ, List.countP_cons, Fin.sum_univ_succ, ← ih (fun j => f j.succ)]
    push_cast
    rw [add_comm]

/-- The expected number of uniform values in a set. -/
theorem expected_count {N : ℕ} (S : Fin N → Ω → ℝ) (hm : ∀ j, Measurable (S j))
    (hu : ∀ j, HasLaw (S j) (volume.restrict (Set.Icc 0 1)) Pr) (A : Set ℝ) (hA : MeasurableSet A) (m : ℝ)
    (hm0 : volume (A ∩ Set.Icc 0 1) = ENNReal.ofReal m) :
    ∫⁻ ω, ((List.ofFn fun j => S j ω).countP (fun x => decide (x ∈ A)) : ENNReal) ∂Pr = ENNReal.ofReal (N * m) := by
  have h1 : ∀ ω, ((List.ofFn fun j => S j ω).countP (fun x => decide (x ∈ A)) : ENNReal) =
      ∑ j, (S j ⁻¹' A).indicator (fun _ => 1) ω := by
    intro ω
    rw [countP_ofFn]
    refine Finset.sum_congr rfl fun j _ => ?_
    by_cases hj : S j ω ∈ A
    · simp [hj]
    · simp [hj]
  simp only [h1]
  rw [lintegral_finsetSum _ (fun j _ => (measurable_const.indicator (hm j hA)))]
  have h2 : ∀ j, ∫⁻ ω, (S j ⁻¹' A).indicator (fun _ => (1 : ENNReal)) ω ∂Pr = ENNReal.ofReal m := by
    intro j
    rw [lintegral_indicator (hm j hA)]
    simp only [lintegral_const, one_mul, Measure.restrict_apply_univ]
    rw [← Measure.map_apply (hm j) hA, (hu j).map_eq, Measure.restrict_apply hA, hm0]
  rw [Finset.sum_congr rfl fun j _ => h2 j]
  simp only [Finset.sum_const, Finset.card_univ, Fintype.card_fin, nsmul_eq_mul]
  rw [ENNReal.ofReal_mul (by positivity)]
  simp

/-- The environment with these stored p-values. -/
def withSamples (E : Dump.Env) (l : List ℝ) : Dump.Env := { E with samples := l }

/-- C90, what the reference curve means for `q_mu`: if the stored p-values are uniform — as they are for samples of
the hypothesis when the asymptotic formulas hold — then the height of the curve in each bin is the expected number
of entries of the bin. -/
theorem c90_qmu_expected (hP : IsProbabilityMeasure Pr) (E : Dump.Env) (o : Dump.Opts) {N : ℕ} (S : Fin N → Ω → ℝ)
    (hm : ∀ j, Measurable (S j)) (hu : ∀ j, HasLaw (S j) (volume.restrict (Set.Icc 0 1)) Pr) (p : Ω → Plot)
    (hp : ∀ ω, Dump.run (withSamples E (List.ofFn fun j => S j ω)) o = .ok (p ω))
    (ht : o.tValue = "q_mu".toList) (hr : o.reference = true) (lo hi : ℝ) (ha : AxisIs E.lib o lo hi) (hlt : lo < hi)
    (i : ℕ) (hi' : i < o.nbins) :
    ∃ x y, (∀ ω, ∃ l, (p ω).ref = some l ∧ l[i]? = some (x, y)) ∧
      ∃ c : Ω → ℕ, (∀ ω, (p ω).counts[i]? = some (c ω)) ∧ ∫⁻ ω, c ω ∂Pr = ENNReal.ofReal y := by
  obtain ⟨ω0⟩ := Pr.nonempty_of_neZero
  have hax : ∀ ω, AxisIs (withSamples E (List.ofFn fun j => S j ω)).lib o lo hi := fun _ => ha
  obtain ⟨n, hn⟩ : ∃ n : ℕ, o.nbins = n := ⟨o.nbins.toNat, by omega⟩
  have hin : i < n := by omega
  have hnpos : 0 < n := by omega
  have hdata : ∃ d q, hypoData E o = .ok (some d) ∧ makeQMu d = .ok q := by
    obtain ⟨r, d, s, hh, h1, h2, h3, _⟩ := run_ok (hp ω0)
    obtain ⟨d', q, hd, hq, _⟩ := shown_qmu h2 h3 ht
    cases d with
    | none =>
      unfold shown at h3
      rw [if_pos ht] at h3; cases h3
    | some d =>
      have := ((hypoData_iff _ o d).1 h2).1
      exact ⟨d', q, (hypoData_iff E o d').2 ⟨this, hd⟩, hq⟩
  obtain ⟨d, q, hd, hq⟩ := hdata
  have hn0 := makeQMu_ncp hq
  have parts : ∀ ω, List.Forall₂ (fun pv v => pv = normSf (signedSqrt v)) (List.ofFn fun j => S j ω) (p ω).values ∧
      (p ω).edges = (List.range (n + 1)).map (edge lo hi n) ∧
      (p ω).counts = (List.range n).map (content (p ω).values lo hi n) ∧
      ∃ l, (p ω).ref = some l ∧ l[i]? = some ((edge lo hi n i + edge lo hi n (i + 1)) / 2,
        N * (normSf (signedSqrt (edge lo hi n i)) - normSf (signedSqrt (edge lo hi n (i + 1))))) := by
    intro ω
    obtain ⟨r, d', s, hh, h1, h2, h3, h4, h5, e1, e2, e3⟩ := run_ok (hp ω)
    rw [(axis_iff _ o (lo, hi)).2 (hax ω)] at h1
    cases Except.ok.inj (ε := PyErr) h1
    have h2' : hypoData E o = .ok d' := h2
    rw [hd] at h2'
    cases Except.ok.inj (ε := PyErr) h2'
    unfold shown at h3
    rw [if_pos ht] at h3
    dsimp only at h3
    rw [hq, bind_ok] at h3
    obtain ⟨vs, hv, h3⟩ := bind_eq_ok.1 h3
    cases Except.ok.inj (ε := PyErr) h3
    obtain ⟨_, _, g3⟩ := hist_ok h4
    obtain ⟨g3, g4⟩ := g3 hlt
    rw [hn, Int.toNat_natCast] at g3 g4
    refine ⟨?_, e2.trans g3, by rw [e3, e1]; exact g4, ?_⟩
    · rw [e1]
      refine (mapM_ok_iff.1 hv).imp fun {pv v} hc => ?_
      obtain ⟨c0, c1, c2⟩ := convert_ok hc
      obtain ⟨t, ht1, ht2⟩ := (c25_qmu_inverse q 0 hn0).1 pv c0 c1
      rw [c2] at ht1
      cases Except.ok.inj (ε := PyErr) ht1
      rw [QMu.pv_eq q 0 _ hn0, Real.sqrt_zero, sub_zero] at ht2
      exact (Except.ok.inj (ε := PyErr) ht2).symm
    · obtain ⟨d2, q2, k1, k2, l, hl, _, hc⟩ := c90_qmu_reference _ o (p ω) (hp ω) ht hr lo hi (hax ω) hlt
      have hd2 := (hypoData_iff E o d2).2 ⟨((hypoData_iff E o d).1 hd).1, k1⟩
      rw [hd] at hd2
      cases Option.some.inj (Except.ok.inj (ε := PyErr) hd2)
      rw [hq] at k2
      cases Except.ok.inj (ε := PyErr) k2
      refine ⟨l, hl, ?_⟩
      obtain ⟨y, hy, pa, pb, q1, q2, q3⟩ := hc i (edge lo hi n i) (edge lo hi n (i + 1))
        (by rw [e2, g3, List.getElem?_eq_getElem (by simp; omega)]; simp)
        (by rw [e2, g3, List.getElem?_eq_getElem (by simp; omega)]; simp)
      rw [QMu.pv_eq q 0 _ hn0, Real.sqrt_zero, sub_zero] at q1 q2
      cases Except.ok.inj (ε := PyErr) q1
      cases Except.ok.inj (ε := PyErr) q2
      rw [hy, q3]
      simp [withSamples]
  refine ⟨_, _, fun ω => (parts ω).2.2.2, fun ω => content (p ω).values lo hi n i, fun ω => ?_, ?_⟩
  · rw [(parts ω).2.2.1, List.getElem?_eq_getElem (by simpa using hin)]; simp
  · set a := edge lo hi n i
    set b := edge lo hi n (i + 1)
    have hab : a < b := edge_mono lo hi n hlt hnpos (Nat.lt_succ_self i)
    have hanti : StrictAnti fun v => normSf (signedSqrt v) := fun x y h => normSf_strictAnti (signedSqrt_strictMono h)
    set pa := normSf (signedSqrt a)
    set pb := normSf (signedSqrt b)
    have hpab : pb < pa := hanti hab
    have hpb : 0 < pb := normSf_pos _
    have hpa : pa < 1 := normSf_lt_one _
    let A : Set ℝ := if i + 1 = n then Set.Icc pb pa else Set.Ioc pb pa
    have hA : MeasurableSet A := by
      show MeasurableSet (if i + 1 = n then Set.Icc pb pa else Set.Ioc pb pa)
      split
      · exact measurableSet_Icc
      · exact measurableSet_Ioc
    have hvol : volume (A ∩ Set.Icc 0 1) = ENNReal.ofReal (pa - pb) := by
      show volume ((if i + 1 = n then Set.Icc pb pa else Set.Ioc pb pa) ∩ Set.Icc 0 1) = _
      split
      · rw [Set.inter_eq_left.2 (fun x hx => show x ∈ Set.Icc (0 : ℝ) 1 from ⟨hpb.le.trans hx.1, hx.2.trans hpa.le⟩), Real.volume_Icc]
      · rw [Set.inter_eq_left.2 (fun x hx => show x ∈ Set.Icc (0 : ℝ) 1 from ⟨(hpb.trans hx.1).le, hx.2.trans hpa.le⟩), Real.volume_Ioc]
    have hcount : ∀ ω, content (p ω).values lo hi n i =
        (List.ofFn fun j => S j ω).countP (fun x => decide (x ∈ A)) := by
      intro ω
      unfold content
      refine countP_rel (parts ω).1 _ _ fun pv v hpv => ?_
      have c1 : a ≤ v ↔ pv ≤ pa := by rw [hpv]; exact hanti.le_iff_ge.symm
      have c2 : v < b ↔ pb < pv := by rw [hpv]; exact hanti.lt_iff_gt.symm
      have c3 : v ≤ b ↔ pb ≤ pv := by rw [hpv]; exact hanti.le_iff_ge.symm
      rw [decide_eq_decide]
      show pv ∈ (if i + 1 = n then Set.Icc pb pa else Set.Ioc pb pa) ↔ a ≤ v ∧ (v < b ∨ i + 1 = n ∧ v = b)
      by_cases hl : i + 1 = n
      · rw [if_pos hl, Set.mem_Icc, ← c1, ← c3, le_iff_lt_or_eq (a := v)]
        tauto
      · rw [if_neg hl, Set.mem_Ioc, ← c1, ← c2]
        tauto
    simp only [hcount]
    exact expected_count S hm hu A hA _ hvol

/-- C90, p-values: the same for an axis within 0 and 1. -/
theorem c90_pv_expected (E : Dump.Env) (o : Dump.Opts) {N : ℕ} (S : Fin N → Ω → ℝ)
    (hm : ∀ j, Measurable (S j)) (hu : ∀ j, HasLaw (S j) (volume.restrict (Set.Icc 0 1)) Pr) (p : Ω → Plot)
    (hp : ∀ ω, Dump.run (withSamples E (List.ofFn fun j => S j ω)) o = .ok (p ω))
    (h1 : o.tValue ≠ "q_mu".toList) (h2 : o.tValue ≠ "q~mu".toList)
    (hr : o.reference = true) (lo hi : ℝ) (ha : AxisIs E.lib o lo hi) (hlt : lo < hi) (h0 : 0 ≤ lo) (h1' : hi ≤ 1)
    (i : ℕ) (hi' : i < o.nbins) :
    ∃ x y, (∀ ω, ∃ l, (p ω).ref = some l ∧ l[i]? = some (x, y)) ∧
      ∃ c : Ω → ℕ, (∀ ω, (p ω).counts[i]? = some (c ω)) ∧ ∫⁻ ω, c ω ∂Pr = ENNReal.ofReal y := by
  have hax : ∀ ω, AxisIs (withSamples E (List.ofFn fun j => S j ω)).lib o lo hi := fun _ => ha
  obtain ⟨n, hn⟩ : ∃ n : ℕ, o.nbins = n := ⟨o.nbins.toNat, by omega⟩
  have hin : i < n := by omega
  have hnpos : 0 < n := by omega
  have parts : ∀ ω, (p ω).values = (List.ofFn fun j => S j ω) ∧
      (p ω).counts = (List.range n).map (content (p ω).values lo hi n) ∧
      ∃ l, (p ω).ref = some l ∧ l[i]? = some ((edge lo hi n i + edge lo hi n (i + 1)) / 2,
        N * (edge lo hi n (i + 1) - edge lo hi n i)) := by
    intro ω
    obtain ⟨r, d', s, hh, g1, g2, g3, h4, h5, e1, e2, e3⟩ := run_ok (hp ω)
    rw [(axis_iff _ o (lo, hi)).2 (hax ω)] at g1
    cases Except.ok.inj (ε := PyErr) g1
    obtain ⟨hv, hc⟩ := c90_pv _ o (p ω) (hp ω) h1 h2
    obtain ⟨l, hl, _, hc⟩ := hc hr lo hi (hax ω) hlt
    obtain ⟨_, _, k3⟩ := hist_ok h4
    obtain ⟨k3, k4⟩ := k3 hlt
    rw [hn, Int.toNat_natCast] at k3 k4
    refine ⟨hv, by rw [e3, e1]; exact k4, l, hl, ?_⟩
    obtain ⟨y, hy, q3⟩ := hc i (edge lo hi n i) (edge lo hi n (i + 1))
      (by rw [e2, k3, List.getElem?_eq_getElem (by simp; omega)]; simp)
      (by rw [e2, k3, List.getElem?_eq_getElem (by simp; omega)]; simp)
    rw [hy, q3]
    simp [withSamples]
  refine ⟨_, _, fun ω => (parts ω).2.2, fun ω => content (p ω).values lo hi n i, fun ω => ?_, ?_⟩
  · rw [(parts ω).2.1, List.getElem?_eq_getElem (by simpa using hin)]; simp
  · have hmono := edge_mono lo hi n hlt hnpos
    have ha0 : 0 ≤ edge lo hi n i := by
      have := hmono.monotone (Nat.zero_le i); rw [edge_zero] at this; linarith
    have hb1 : edge lo hi n (i + 1) ≤ 1 := by
      have := hmono.monotone (show i + 1 ≤ n by omega); rw [edge_last _ _ _ hnpos] at this; linarith
    have hab : edge lo hi n i < edge lo hi n (i + 1) := hmono (Nat.lt_succ_self i)
    set a := edge lo hi n i
    set b := edge lo hi n (i + 1)
    let A : Set ℝ := if i + 1 = n then Set.Icc a b else Set.Ico a b
    have hA : MeasurableSet A := by
      show MeasurableSet (if i + 1 = n then Set.Icc a b else Set.Ico a b)
      split
      · exact measurableSet_Icc
      · exact measurableSet_Ico
    have hvol : volume (A ∩ Set.Icc 0 1) = ENNReal.ofReal (b - a) := by
      show volume ((if i + 1 = n then Set.Icc a b else Set.Ico a b) ∩ Set.Icc 0 1) = _
      split
      · rw [Set.inter_eq_left.2 (fun x hx => show x ∈ Set.Icc (0 : ℝ) 1 from ⟨ha0.trans hx.1, hx.2.trans hb1⟩), Real.volume_Icc]
      · rw [Set.inter_eq_left.2 (fun x hx => show x ∈ Set.Icc (0 : ℝ) 1 from ⟨ha0.trans hx.1, hx.2.le.trans hb1⟩), Real.volume_Ico]
    have hcount : ∀ ω, content (p ω).values lo hi n i =
        (List.ofFn fun j => S j ω).countP (fun x => decide (x ∈ A)) := by
      intro ω
      unfold content
      rw [(parts ω).1]
      refine List.countP_congr fun v _ => ?_
      simp only [decide_eq_true_eq]
      show a ≤ v ∧ (v < b ∨ i + 1 = n ∧ v = b) ↔ v ∈ (if i + 1 = n then Set.Icc a b else Set.Ico a b)
      by_cases hl : i + 1 = n
      · rw [if_pos hl, Set.mem_Icc, le_iff_lt_or_eq (a := v)]
        tauto
      · rw [if_neg hl, Set.mem_Ico]
        tauto
    simp only [hcount]
    exact expected_count S hm hu A hA _ hvol

end expected

/-- C90 (F123): for any other text of `--t-value` (for instance `t_mu`) the script draws the p-values, on an axis from
-10 to 10, with a reference curve whose heights add up to 20 times the number of samples. -/
theorem c90_other_statistic (E : Dump.Env) (o : Dump.Opts) (p : Plot) (h : Dump.run E o = .ok p)
    (h0 : o.tValue ≠ []) (h1 : o.tValue ≠ "q_mu".toList) (h2 : o.tValue ≠ "q~mu".toList) (hx : o.xRange = [])
    (hr : o.reference = true) :
    p.values = E.samples ∧ p.edges[0]? = some (-10 : ℝ) ∧ p.edges.getLast? = some 10 ∧
      ∃ l, p.ref = some l ∧ (l.map Prod.snd).sum = 20 * E.samples.length := by
  have ha : AxisIs E.lib o (-10) 10 := Or.inr (Or.inr ⟨hx, h0, rfl, rfl⟩)
  obtain ⟨hv, hc⟩ := c90_pv E o p h h1 h2
  obtain ⟨l, hl, hlen, hc⟩ := hc hr _ _ ha (by norm_num)
  obtain ⟨n, hn, b1, b2, b3, b4, b5, _⟩ := c90_bins E o p h _ _ ha (by norm_num)
  obtain ⟨_, hn1, _⟩ := c90_needs E o p h
  have hnpos : (n : ℝ) ≠ 0 := by
    have : 0 < n := by omega
    positivity
  refine ⟨hv, b3, by rw [List.getLast?_eq_getElem?, b1]; exact b4, l, hl, ?_⟩
  have hmap : l.map Prod.snd = List.replicate n (E.samples.length * (20 / n : ℝ)) := by
    refine List.ext_getElem? fun i => ?_
    by_cases hi : i < n
    · obtain ⟨a, ha'⟩ : ∃ a, p.edges[i]? = some a := ⟨_, List.getElem?_eq_getElem (by omega)⟩
      obtain ⟨b, hb'⟩ : ∃ b, p.edges[i + 1]? = some b := ⟨_, List.getElem?_eq_getElem (by omega)⟩
      obtain ⟨y, hy, hy2⟩ := hc i a b ha' hb'
      have hw := (b5 i a b ha' hb').1
      rw [List.getElem?_map, hy]
      simp only [Option.map_some]
      rw [List.getElem?_replicate_of_lt hi, hy2, hw]
      norm_num
    · rw [List.getElem?_eq_none (by simp; omega), List.getElem?_eq_none (by simp; omega)]
  rw [hmap, List.sum_replicate, nsmul_eq_mul]
  field_simp

/-- C90: the plot of `q_mu` is made whenever the axis is a range, there is a bin, the hypothesis is in the file with
what the statistic needs, and the stored p-values are between 0 and 1. -/
theorem c90_qmu_succeeds (E : Dump.Env) (o : Dump.Opts) (ht : o.tValue = "q_mu".toList) (lo hi : ℝ)
    (ha : AxisIs E.lib o lo hi) (hlt : lo ≤ hi) (hn : 1 ≤ o.nbins) (hm : E.model = .ok true) (d : PLRData)
    (hd : HypoIs E o d) (q : QMu) (hq : makeQMu d = .ok q) (hs : ∀ x ∈ E.samples, 0 < x ∧ x < 1) :
    ∃ p, Dump.run E o = .ok p := by
  have hn0 := makeQMu_ncp hq
  have hv : ∃ vs, E.samples.mapM (convert q.asymptoticTs) = .ok vs := by
    generalize E.samples = l at hs
    induction l with
    | nil => exact ⟨[], rfl⟩
    | cons x xs ih =>
      obtain ⟨vs, hvs⟩ := ih fun y hy => hs y (List.mem_cons_of_mem _ hy)
      obtain ⟨t, ht, _⟩ := (c25_qmu_inverse q 0 hn0).1 x (hs x List.mem_cons_self).1 (hs x List.mem_cons_self).2
      refine ⟨t :: vs, ?_⟩
      rw [List.mapM_cons, hvs]
      have : convert q.asymptoticTs x = .ok t := by
        unfold convert
        rw [if_pos (hs x List.mem_cons_self), ht]
      rw [this]; rfl
  obtain ⟨vs, hvs⟩ := hv
  have hsh : shown E.samples (some d) o = .ok (vs, some fun t => q.asymptoticPdf (some t)) := by
    unfold shown
    rw [if_pos ht]
    dsimp only
    rw [hq, bind_ok, hvs]; rfl
  have hh : ∃ hh, histogram vs o.nbins lo hi = .ok hh := by
    unfold histogram
    rw [if_neg (by push Not; exact ⟨hn, hlt⟩)]
    exact ⟨_, rfl⟩
  obtain ⟨hi2, hh⟩ := hh
  have hr : ∃ r, optReference o E.samples.length (some fun t => q.asymptoticPdf (some t)) lo hi = .ok r := by
    unfold optReference
    by_cases hr : o.reference = true
    · rw [if_pos hr]
      obtain ⟨n, hnn⟩ : ∃ n : ℕ, o.nbins = n := ⟨o.nbins.toNat, by omega⟩
      have hc : Continuous fun u => normSf (signedSqrt u - Real.sqrt 0) :=
        normSf_continuous.comp (signedSqrt_continuous.sub continuous_const)
      obtain ⟨g, g1, g2, g3⟩ := qmu_density q 0 hn0
      have hle : ∀ i, edge lo hi n i ≤ edge lo hi n (i + 1) := by
        intro i
        rw [edge_succ]
        have : 0 ≤ (hi - lo) / n := div_nonneg (by linarith) (by positivity)
        linarith
      rw [hnn, reference_eq E.samples.length _ n (by omega) lo hi
        (fun i => E.samples.length * (normSf (signedSqrt (edge lo hi n i) - Real.sqrt 0) -
          normSf (signedSqrt (edge lo hi n (i + 1)) - Real.sqrt 0)))
        (fun F hF i => by cases Option.some.inj hF; exact ⟨_, quad_eq g1 hc g2 g3 (hle i), rfl⟩)
        (fun hF => by cases hF)]
      exact ⟨_, rfl⟩
    · rw [if_neg hr]; exact ⟨_, rfl⟩
  obtain ⟨r, hr⟩ := hr
  refine ⟨⟨vs, hi2.1, hi2.2, r⟩, ?_⟩
  unfold Dump.run
  rw [(axis_iff E.lib o (lo, hi)).2 ha, bind_ok, (hypoData_iff E o d).2 ⟨hm, hd⟩, bind_ok, hsh, bind_ok, hh, bind_ok,
    hr, bind_ok]
  rfl

namespace DumpDemo
/-- A stored entry with the POI `mu = 1`, best fit 0. -/
noncomputable def entry : PLRData :=
  ⟨[("mu", 1)], some ⟨[("mu", FitPar.new "mu" (some 0))], some 0⟩, none, [("tmu", 1), ("tmu_A0", 1)], [], none⟩
/-- A raster with one entry, read with the index 0. -/
noncomputable def env : Dump.Env where
  lib := ⟨fun _ _ => false, fun _ => none, fun t => if t = ['0'] then some 0 else none⟩
  samples := []
  model := .ok true
  raster := fun _ => .ok [entry]
/-- `--t-value q_mu --hypo f:0 --reference`. -/
def opts : Dump.Opts := ⟨100, [], "q_mu".toList, "f:0".toList, true⟩

theorem hypo (l : List ℝ) : HypoIs (withSamples env l) opts entry :=
  ⟨['f'], ['0'], [entry], 0, rfl, by decide, by decide, rfl, by simp [withSamples, env], 0, rfl, Or.inl rfl⟩

theorem axis (l : List ℝ) : AxisIs (withSamples env l).lib opts (-10) 10 :=
  Or.inr (Or.inr ⟨rfl, by decide, rfl, rfl⟩)

theorem stat : ∃ q, makeQMu entry = .ok q := by
  refine ⟨QMu.init 1 1 0 none (some 1) none, ?_⟩
  simp [makeQMu, entry, calcPoi, bestOf, Dict.keys, Dict.getItem, Dict.get?, FitPar.new]

theorem makes (l : List ℝ) (hl : ∀ x ∈ l, 0 < x ∧ x < 1) : ∃ p, Dump.run (withSamples env l) opts = .ok p := by
  obtain ⟨q, hq⟩ := stat
  exact c90_qmu_succeeds _ opts rfl _ _ (axis l) (by norm_num) (by decide) rfl entry (hypo l) q hq hl
end DumpDemo

/-- The conditions are met: three stored p-values are drawn as values of `q_mu`. -/
example : ∃ p, Dump.run (withSamples DumpDemo.env [1/2, 1/3, 1/10]) DumpDemo.opts = .ok p ∧ p.values.length = 3 := by
  obtain ⟨p, hp⟩ := DumpDemo.makes [1/2, 1/3, 1/10] (by
    intro x hx; simp at hx; rcases hx with rfl | rfl | rfl <;> norm_num)
  obtain ⟨_, _, _, _, h⟩ := c90_qmu_values _ _ p hp rfl
  exact ⟨p, hp, h.length_eq.symm⟩

open ProbabilityTheory in
/-- Those of the expected contents, too: a uniform p-value. -/
example : ∃ (p : ℝ → Plot) (x y : ℝ), (∀ ω, ∃ l, (p ω).ref = some l ∧ l[60]? = some (x, y)) ∧
    ∃ c : ℝ → ℕ, (∀ ω, (p ω).counts[60]? = some (c ω)) ∧
      ∫⁻ ω, c ω ∂(volume.restrict (Set.Icc (0 : ℝ) 1)) = ENNReal.ofReal y := by
  classical
  let S : Fin 1 → ℝ → ℝ := fun _ ω => if 0 < ω ∧ ω < 1 then ω else 1/2
  have hS : ∀ j ω, 0 < S j ω ∧ S j ω < 1 := by
    intro j ω
    show 0 < (if 0 < ω ∧ ω < 1 then ω else 1/2) ∧ (if 0 < ω ∧ ω < 1 then ω else 1/2) < 1
    split
    · assumption
    · norm_num
  have hm : ∀ j, Measurable (S j) := fun j =>
    Measurable.ite (measurableSet_Ioo (a := (0 : ℝ)) (b := 1)) measurable_id measurable_const
  have hP : IsProbabilityMeasure (volume.restrict (Set.Icc (0 : ℝ) 1)) := ⟨by simp⟩
  have hu : ∀ j, HasLaw (S j) (volume.restrict (Set.Icc 0 1)) (volume.restrict (Set.Icc (0 : ℝ) 1)) := by
    intro j
    refine ⟨(hm j).aemeasurable, ?_⟩
    have hae : S j =ᵐ[volume.restrict (Set.Icc (0 : ℝ) 1)] id := by
      rw [← MeasureTheory.restrict_Ioo_eq_restrict_Icc]
      filter_upwards [ae_restrict_mem measurableSet_Ioo] with ω hω
      exact if_pos hω
    rw [Measure.map_congr hae, Measure.map_id]
  choose p hp using fun ω : ℝ => DumpDemo.makes (List.ofFn fun j => S j ω) (by
    intro x hx
    obtain ⟨j, rfl⟩ := (List.mem_ofFn).1 hx
    exact hS j ω)
  obtain ⟨x, y, h1, h2⟩ := c90_qmu_expected hP DumpDemo.env DumpDemo.opts S hm hu p hp rfl rfl _ _
    (DumpDemo.axis []) (by norm_num) 60 (by decide)
  exact ⟨p, x, y, h1, h2⟩

end Verif.Props
