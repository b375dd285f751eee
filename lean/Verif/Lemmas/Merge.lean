import Verif.Lemmas.Tools
import Verif.Model.Merge
/-!
# Lemmas on merged channels
-/
namespace Verif
open Merge

/-! ### Impacts given by their values at ±1 -/

/-- A dictionary of variations with the keys `+1` and `-1`, in any order. -/
def StdDict (d : List (VarKey × ℝ)) : Prop := (d.map (·.1)).Perm [.num 1, .num (-1)]

/-- The impact at `v`. -/
noncomputable def varAt (v : ℝ) (d : List (VarKey × ℝ)) : ℝ :=
  match lookupVar d v with
  | .ok y => y
  | .error _ => 0

theorem lookupVar_ok {d : List (VarKey × ℝ)} {v : ℝ} (h : VarKey.num v ∈ d.map (·.1)) :
    lookupVar d v = .ok (varAt v d) := by
  have : ∃ y, lookupVar d v = .ok y := by
    induction d with
    | nil => simp at h
    | cons a d ih =>
      obtain ⟨k, y⟩ := a
      simp only [lookupVar]
      by_cases hk : k = .num v
      · exact ⟨y, by rw [if_pos hk]⟩
      · rw [if_neg hk]
        simp only [List.map_cons, List.mem_cons] at h
        exact ih (h.resolve_left fun e => hk e.symm)
  obtain ⟨y, hy⟩ := this
  rw [varAt, hy]

theorem StdDict.one {d : List (VarKey × ℝ)} (h : StdDict d) : VarKey.num 1 ∈ d.map (·.1) :=
  h.mem_iff.2 (by simp)
theorem StdDict.neg {d : List (VarKey × ℝ)} (h : StdDict d) : VarKey.num (-1) ∈ d.map (·.1) :=
  h.mem_iff.2 (by simp)

theorem stdDict_zero : StdDict zeroVar := List.Perm.refl _

theorem varAt_zero (v : ℝ) : varAt v zeroVar = 0 := by
  by_cases h1 : (1 : ℝ) = v
  · simp [varAt, lookupVar, zeroVar, h1]
  · by_cases h2 : (-1 : ℝ) = v
    · subst h2; simp [varAt, lookupVar, zeroVar]
    · simp [varAt, lookupVar, zeroVar, h1, h2]

/-- An impact given at ±1, for all bins or bin by bin. -/
def StdImpact (nb : Nat) : Impact → Prop
  | .perBin l => l.length = nb ∧ ∀ d ∈ l, StdDict d
  | .common d => StdDict d
  | .float _ => False

/-- The dictionaries of variations of a sample, bin by bin. -/
noncomputable def Sample.dicts (s : Sample) (par : String) (nb : Nat) : List (List (VarKey × ℝ)) :=
  match s.impacts.get? par with
  | none => List.replicate nb zeroVar
  | some (.perBin l) => l
  | some (.common d) => List.replicate nb d
  | some (.float _) => []

/-- All impacts of a sample are given at ±1. -/
def Sample.Std (s : Sample) (nb : Nat) : Prop :=
  s.nominal_yields.length = nb ∧ ∀ par i, s.impacts.get? par = some i → StdImpact nb i

namespace Sample
variable {s : Sample} {nb : Nat}

theorem Std.dicts_std (h : s.Std nb) (par : String) :
    (s.dicts par nb).length = nb ∧ ∀ d ∈ s.dicts par nb, StdDict d := by
  unfold dicts
  cases hi : s.impacts.get? par with
  | none => exact ⟨by simp, fun d hd => by rw [List.eq_of_mem_replicate hd]; exact stdDict_zero⟩
  | some i =>
    have := h.2 par i hi
    cases i with
    | perBin l => exact this
    | common d => exact ⟨by simp, fun d' hd => by rw [List.eq_of_mem_replicate hd]; exact this⟩
    | float v => exact this.elim

theorem Std.wellShaped (h : s.Std nb) : s.WellShaped nb :=
  ⟨h.1, fun par l hl => (h.2 par _ hl).1⟩

theorem Std.impact (h : s.Std nb) (par : String) {v : ℝ} (hv : v = 1 ∨ v = -1) :
    s.impact par v = .ok ((s.dicts par nb).map (varAt v)) := by
  have key : ∀ d, StdDict d → lookupVar d v = .ok (varAt v d) := by
    intro d hd
    rcases hv with rfl | rfl
    · exact lookupVar_ok hd.one
    · exact lookupVar_ok hd.neg
  unfold Sample.impact dicts
  cases hi : s.impacts.get? par with
  | none => simp [h.1, varAt_zero]
  | some i =>
    have := h.2 par i hi
    cases i with
    | perBin l =>
      simp only
      refine mapM_ok_iff.2 ?_
      rw [List.forall₂_map_right_iff]
      exact List.forall₂_same.2 fun d hd => key d (this.2 d hd)
    | common d =>
      simp only
      rw [key d this, bind_ok]
      simp [h.1]
    | float v => exact this.elim

theorem Std.available (h : s.Std nb) (hnb : 0 < nb) (par : String) :
    (s.availableVariations par).Perm [1, -1] := by
  have key : ∀ d : List (VarKey × ℝ), StdDict d → (d.map (fun kv => kv.1.toReal)).Perm [1, -1] := by
    intro d hd
    have := hd.map VarKey.toReal
    simpa [VarKey.toReal, Function.comp_def] using this
  unfold availableVariations
  cases hi : s.impacts.get? par with
  | none => exact List.Perm.refl _
  | some i =>
    have := h.2 par i hi
    cases i with
    | perBin l =>
      cases l with
      | nil => exact absurd this.1 (by simp; omega)
      | cons d l => exact key d (this.2 d (by simp))
    | common d => exact key d this
    | float v => exact this.elim

theorem Std.posVars (h : s.Std nb) (hnb : 0 < nb) (par : String) : s.posVars par none = [1] := by
  have hp := (h.available hnb par).filter (fun v : ℝ => decide (0 < v))
  have e : [(1 : ℝ), -1].filter (fun v : ℝ => decide (0 < v)) = [1] := by norm_num
  rw [e] at hp
  simp only [Sample.posVars, List.perm_singleton.1 hp, List.insertionSort_cons, List.insertionSort_nil,
    List.orderedInsert_nil]

theorem Std.negVars (h : s.Std nb) (hnb : 0 < nb) (par : String) : s.negVars par none = [-1] := by
  have hp := (h.available hnb par).filter (fun v : ℝ => decide (v < 0))
  have e : [(1 : ℝ), -1].filter (fun v : ℝ => decide (v < 0)) = [-1] := by norm_num
  rw [e] at hp
  simp only [Sample.negVars, List.perm_singleton.1 hp, List.insertionSort_cons, List.insertionSort_nil,
    List.orderedInsert_nil]

/-- Contribution of one NP in a bin with impacts `d`. -/
noncomputable def effect (asym linear : Bool) (d : List (VarKey × ℝ)) (t : ℝ) : ℝ :=
  if asym then impactVal (!linear) (varAt 1 d) / 1 * max t 0 + impactVal (!linear) (varAt (-1) d) / -1 * min t 0
  else if linear then 1 / 2 * (varAt 1 d - varAt (-1) d) * t
  else Real.log (1 + 1 / 2 * (varAt 1 d - varAt (-1) d)) * t

theorem Std.term (h : s.Std nb) (par : String) (asym linear : Bool) {b : Nat} (hb : b < nb)
    (t : ℝ) : s.term asym linear none par b t = effect asym linear ((s.dicts par nb).getD b zeroVar) t := by
  have hnb : 0 < nb := by omega
  have hl := (h.dicts_std par).1
  unfold Sample.term effect
  by_cases ha : asym = true
  · rw [if_pos ha, if_pos ha]
    have hc : s.impactCoefficients par none (!linear) = .ok ⟨1,
        shortRows (!linear) 1 ((s.dicts par nb).map (varAt 1)), 1,
        shortRows (!linear) (-1) ((s.dicts par nb).map (varAt (-1)))⟩ := by
      unfold impactCoefficients
      simp only [h.posVars hnb, h.negVars hnb, List.mapM_cons, List.mapM_nil, h.impact par (.inl rfl),
        h.impact par (.inr rfl), bind_ok, pure_ok]
    rw [hc]
    have hb' : b < (s.dicts par nb).length := by omega
    simp only [shortRows, List.map_map, Finset.sum_range_one]
    simp [List.getD_eq_getElem?_getD, List.getElem?_eq_getElem hb']
  · rw [if_neg ha, if_neg ha]
    have hs : s.symImpact par = .ok (List.zipWith (fun x y => (1 / 2) * (x - y))
        ((s.dicts par nb).map (varAt 1)) ((s.dicts par nb).map (varAt (-1)))) := by
      simp only [symImpact, h.impact par (.inl rfl), h.impact par (.inr rfl)]
    rw [hs]
    have hb' : b < (s.dicts par nb).length := by omega
    have e : (List.zipWith (fun x y : ℝ => (1 / 2) * (x - y))
        ((s.dicts par nb).map (varAt 1)) ((s.dicts par nb).map (varAt (-1)))).getD b 0 =
        1 / 2 * (varAt 1 ((s.dicts par nb).getD b zeroVar) - varAt (-1) ((s.dicts par nb).getD b zeroVar)) := by
      rw [List.getD_eq_getElem _ _ (by simpa using hb'), List.getD_eq_getElem _ _ hb']
      simp
    simp only [e]

end Sample

namespace Merge

/-! ### The samples of the merged channel -/

theorem get?_addKeys (ks : List String) (d : Dict Impact) (k : String) :
    (addKeys d ks).get? k = if (d.get? k).isSome then d.get? k
      else if k ∈ ks then some (.common zeroVar) else none := by
  unfold addKeys
  induction ks generalizing d with
  | nil => cases h : d.get? k <;> simp [h]
  | cons a ks ih =>
    rw [List.foldl_cons, ih]
    by_cases ha : (d.get? a).isSome = true
    · simp only [ha, if_true]
      by_cases hk : (d.get? k).isSome = true
      · simp [hk]
      · have : k ≠ a := by rintro rfl; exact hk ha
        simp [this]
    · simp only [ha]
      by_cases hka : k = a
      · subst hka
        simp [Dict.get?_set, ha]
      · have h1 : (d.set a (.common zeroVar)).get? k = d.get? k := Dict.get?_set_ne _ _ (fun h => hka h.symm)
        simp [h1, hka]

/-- What is known of the samples collected from `all`, when the samples of `done` have been seen. -/
structure Collected (all done : List (String × Sample)) (d : Dict Entry) : Prop where
  nodup : d.keys.Nodup
  entry : ∀ nm e, d.get? nm = some e → e.sample.name = nm ∧
    (∃ s, (e.source, s) ∈ all ∧ s.name = nm ∧ e.sample.norm = s.norm ∧
      e.sample.nominal_norm = s.nominal_norm) ∧
    ∀ k, (e.sample.impacts.get? k).isSome → ∃ q ∈ all, q.2.name = nm ∧ (q.2.impacts.get? k).isSome
  seen : ∀ q ∈ done, ∃ e, d.get? q.2.name = some e ∧
    ∀ k, (q.2.impacts.get? k).isSome → (e.sample.impacts.get? k).isSome

theorem Collected.init {all : List (String × Sample)} : ∀ (l done : List (String × Sample)) (d : Dict Entry),
    (∀ q ∈ l, q ∈ all) → Collected all [] d →
    Collected all [] (l.foldl (fun d q => d.set q.2.name ⟨q.2, q.1⟩) d) := by
  intro l
  induction l with
  | nil => intro _ d _ h; exact h
  | cons q l ih =>
    intro done d hl h
    rw [List.foldl_cons]
    refine ih done _ (fun r hr => hl r (by simp [hr])) ⟨Dict.nodup_keys_set _ _ _ h.nodup, ?_, fun q hq => by cases hq⟩
    intro nm e he
    rw [Dict.get?_set] at he
    split_ifs at he with hn
    · obtain rfl := Option.some.inj he
      exact ⟨hn, ⟨q.2, hl q (by simp), hn, rfl, rfl⟩, fun k hk => ⟨q, hl q (by simp), hn, hk⟩⟩
    · exact h.entry nm e he

theorem Collected.step {all done : List (String × Sample)} {d : Dict Entry} (h : Collected all done d)
    {q : String × Sample} (hq : q ∈ all) : Collected all (done ++ [q]) (collectSample d q) := by
  unfold collectSample
  cases hd : d.get? q.2.name with
  | none =>
    refine ⟨Dict.nodup_keys_set _ _ _ h.nodup, ?_, ?_⟩
    · intro nm e he
      rw [Dict.get?_set] at he
      split_ifs at he with hn
      · obtain rfl := Option.some.inj he
        exact ⟨hn, ⟨q.2, hq, hn, rfl, rfl⟩, fun k hk => ⟨q, hq, hn, hk⟩⟩
      · exact h.entry nm e he
    · intro r hr
      rcases List.mem_append.1 hr with hr | hr
      · obtain ⟨e, he, hk⟩ := h.seen r hr
        refine ⟨e, ?_, hk⟩
        rw [Dict.get?_set, if_neg, he]
        intro hc
        rw [← hc, hd] at he; cases he
      · rw [List.mem_singleton.1 hr]
        exact ⟨⟨q.2, q.1⟩, by rw [Dict.get?_set, if_pos rfl], fun k hk => hk⟩
  | some e0 =>
    obtain ⟨hn0, ⟨s0, hs0⟩, hk0⟩ := h.entry _ _ hd
    refine ⟨Dict.nodup_keys_set _ _ _ h.nodup, ?_, ?_⟩
    · intro nm e he
      simp only at he
      rw [Dict.get?_set] at he
      split_ifs at he with hn
      · obtain rfl := Option.some.inj he
        subst hn
        refine ⟨hn0, ⟨s0, hs0⟩, fun k hk => ?_⟩
        simp only [get?_addKeys] at hk
        by_cases h1 : (e0.sample.impacts.get? k).isSome = true
        · exact hk0 k h1
        · rw [if_neg h1] at hk
          split_ifs at hk with h2
          · obtain ⟨v, hv⟩ := (Dict.mem_keys_iff _ _).1 h2
            exact ⟨q, hq, rfl, by rw [hv]; rfl⟩
          · cases hk
      · exact h.entry nm e he
    · intro r hr
      simp only
      rcases List.mem_append.1 hr with hr | hr
      · obtain ⟨e, he, hk⟩ := h.seen r hr
        by_cases hc : r.2.name = q.2.name
        · rw [hc] at he ⊢
          rw [hd] at he
          obtain rfl := Option.some.inj he
          refine ⟨_, by rw [Dict.get?_set, if_pos rfl], fun k hkk => ?_⟩
          simp only [get?_addKeys, hk k hkk, if_true]
        · exact ⟨e, by rw [Dict.get?_set, if_neg (fun h => hc h.symm), he], hk⟩
      · rw [List.mem_singleton.1 hr]
        refine ⟨_, by rw [Dict.get?_set, if_pos rfl], fun k hkk => ?_⟩
        simp only [get?_addKeys]
        obtain ⟨v, hv⟩ := Option.isSome_iff_exists.1 hkk
        have hm : k ∈ q.2.impacts.keys := (Dict.mem_keys_iff _ _).2 ⟨v, hv⟩
        by_cases h1 : (e0.sample.impacts.get? k).isSome = true
        · simp [h1]
        · simp [h1, hm]

theorem Collected.steps {all : List (String × Sample)} (l : List (String × Sample)) (hl : ∀ q ∈ l, q ∈ all) :
    ∀ (done : List (String × Sample)) (d : Dict Entry), Collected all done d →
      Collected all (done ++ l) (l.foldl collectSample d) := by
  induction l with
  | nil => intro done d h; simpa using h
  | cons q l ih =>
    intro done d h
    have := ih (fun r hr => hl r (by simp [hr])) (done ++ [q]) _ (h.step (hl q (by simp)))
    simpa using this

theorem collect_spec {ms : List Channel} {first : Channel} (hf : first ∈ ms) :
    Collected (ms.flatMap withSource) (ms.flatMap withSource) (collect ms first) := by
  have h0 : Collected (ms.flatMap withSource) [] ([] : Dict Entry) :=
    ⟨by simp [Dict.keys], fun nm e he => (by cases he), fun q hq => (by cases hq)⟩
  have h1 := Collected.init (withSource first) [] [] (fun q hq => List.mem_flatMap.2 ⟨first, hf, hq⟩) h0
  exact Collected.steps (ms.flatMap withSource) (fun q hq => hq) [] _ h1

theorem longest_spec (ms : List Channel) (h : ms ≠ []) : ∃ c ∈ ms, longest ms = some c := by
  have key : ∀ (l : List Channel) (c : Channel), ∃ c', (c' = c ∨ c' ∈ l) ∧
      l.foldl (fun l ch => match l with
        | none => some ch
        | some c => if ch.samples.length > c.samples.length then some ch else some c) (some c) = some c' := by
    intro l
    induction l with
    | nil => intro c; exact ⟨c, .inl rfl, rfl⟩
    | cons a l ih =>
      intro c
      rw [List.foldl_cons]
      simp only
      split_ifs with hlt
      · obtain ⟨c', h1, h2⟩ := ih a
        exact ⟨c', .inr (by rcases h1 with rfl | h1 <;> simp [*]), h2⟩
      · obtain ⟨c', h1, h2⟩ := ih c
        exact ⟨c', by rcases h1 with rfl | h1 <;> simp [*], h2⟩
  cases ms with
  | nil => exact absurd rfl h
  | cons a l =>
    obtain ⟨c, h1, h2⟩ := key l a
    exact ⟨c, by rcases h1 with rfl | h1 <;> simp [*], h2⟩


/-- The conditions on the channels to merge: bins, impacts at ±1, normalisations not 0 and the same for
samples of the same name; a channel with several bins has all the samples and lists all impacts bin by
bin. -/
structure Aligned (ms : List Channel) : Prop where
  pos : ∀ ch ∈ ms, 0 < ch.nbins
  names : ∀ ch ∈ ms, (ch.samples.map (·.name)).Nodup
  std : ∀ ch ∈ ms, ∀ s ∈ ch.samples, s.Std ch.nbins ∧ s.nominal_norm ≠ 0
  norms : ∀ ch ∈ ms, ∀ s ∈ ch.samples, ∀ ch' ∈ ms, ∀ s' ∈ ch'.samples, s.name = s'.name → s.norm = s'.norm
  listed : ∀ ch ∈ ms, ch.nbins = 1 ∨ ∀ ch' ∈ ms, ∀ s ∈ ch'.samples, ∃ t ∈ ch.samples, t.name = s.name ∧
    ∀ k, (s.impacts.get? k).isSome → ∃ l, t.impacts.get? k = some (.perBin l)

theorem getSample_some {ch : Channel} {nm : String} {s : Sample} (h : getSample ch nm = some s) :
    s ∈ ch.samples ∧ s.name = nm := by
  unfold getSample at h
  exact ⟨List.mem_of_find?_eq_some h, by simpa using List.find?_some h⟩

theorem find_of_nodup {α : Type} {f : α → String} {l : List α} (hn : (l.map f).Nodup) {a : α} (ha : a ∈ l) :
    l.find? (fun x => f x == f a) = some a := by
  induction l with
  | nil => cases ha
  | cons b l ih =>
    rw [List.map_cons, List.nodup_cons] at hn
    by_cases hb : f b = f a
    · rcases List.mem_cons.1 ha with rfl | h
      · simp
      · exact absurd (List.mem_map.2 ⟨a, h, hb.symm⟩) hn.1
    · rw [List.find?_cons_of_neg (by simpa using hb)]
      exact ih hn.2 ((List.mem_cons.1 ha).resolve_left (fun h => hb (by rw [h])))

theorem getSample_mem {ch : Channel} (hn : (ch.samples.map (·.name)).Nodup) {s : Sample} (hs : s ∈ ch.samples) :
    getSample ch s.name = some s := find_of_nodup hn hs

/-- The part of a channel in a merged impact. -/
theorem mergedPart_ok {ms : List Channel} (ha : Aligned ms) {ch : Channel} (hc : ch ∈ ms) {nm par : String}
    (hnm : ∃ ch' ∈ ms, ∃ s ∈ ch'.samples, s.name = nm ∧ (s.impacts.get? par).isSome) :
    ∃ l, mergedPart par nm ch = .ok l ∧ l.length = ch.nbins ∧ (∀ d ∈ l, StdDict d) ∧
      ∀ s, getSample ch nm = some s → l = s.dicts par ch.nbins := by
  have hz : ch.nbins = 1 → ([zeroVar] : List (List (VarKey × ℝ))).length = ch.nbins ∧
      ∀ d ∈ [zeroVar], StdDict d := fun h => ⟨by simp [h], fun d hd => by
        rw [List.mem_singleton.1 hd]; exact stdDict_zero⟩
  cases hg : getSample ch nm with
  | none =>
    rcases ha.listed ch hc with h1 | h1
    · refine ⟨[zeroVar], ?_, (hz h1).1, (hz h1).2, fun s hs => by cases hs⟩
      simp only [mergedPart, hg]
    · obtain ⟨ch', hc', s, hs, hsn, _⟩ := hnm
      obtain ⟨t, ht, htn, _⟩ := h1 ch' hc' s hs
      have := getSample_mem (ha.names ch hc) ht
      rw [htn, hsn, hg] at this
      cases this
  | some s =>
    obtain ⟨hs, hsn⟩ := getSample_some hg
    have hstd := (ha.std ch hc s hs).1
    have hd := hstd.dicts_std par
    refine ⟨s.dicts par ch.nbins, ?_, hd.1, hd.2, fun s' h' => by rw [← Option.some.inj h']⟩
    rcases ha.listed ch hc with h1 | h1
    · simp only [mergedPart, hg, Sample.dicts, h1]
      cases hi : s.impacts.get? par with
      | none => rfl
      | some i =>
        cases i with
        | perBin l => rfl
        | common d => rfl
        | float v => exact (hstd.2 par _ hi).elim
    · obtain ⟨ch', hc', s', hs', hsn', hk⟩ := hnm
      obtain ⟨t, ht, htn, hl⟩ := h1 ch' hc' s' hs'
      have := getSample_mem (ha.names ch hc) ht
      rw [htn, hsn', hg] at this
      obtain rfl := Option.some.inj this
      obtain ⟨l, hl⟩ := hl par hk
      simp only [mergedPart, hg, hl, Sample.dicts]

/-- A sample of the merged channel. -/
structure IsMerged (ms : List Channel) (nm : String) (M : Sample) : Prop where
  name : M.name = nm
  nn : M.nominal_norm ≠ 0
  source : ∃ ch ∈ ms, ∃ s ∈ ch.samples, s.name = nm ∧ M.norm = s.norm
  std : M.Std (ms.map (·.nbins)).sum
  keys : ∀ ch ∈ ms, ∀ s ∈ ch.samples, s.name = nm → ∀ k, (s.impacts.get? k).isSome → (M.impacts.get? k).isSome
  present : ∀ pre ch post, ms = pre ++ ch :: post → ∀ s, getSample ch nm = some s → ∀ b < ch.nbins,
    M.nominal_yields.getD ((pre.map (·.nbins)).sum + b) 0 =
      s.nominal_yields.getD b 0 / s.nominal_norm * M.nominal_norm ∧
    ∀ par, (M.dicts par (ms.map (·.nbins)).sum).getD ((pre.map (·.nbins)).sum + b) zeroVar =
      (s.dicts par ch.nbins).getD b zeroVar
  absent : ∀ pre ch post, ms = pre ++ ch :: post → getSample ch nm = none → ∀ b < ch.nbins,
    M.nominal_yields.getD ((pre.map (·.nbins)).sum + b) 0 = 0

theorem get?_mapKey (d : Dict Impact) (g : String → Impact) (k : String) :
    Dict.get? (d.map fun kv => (kv.1, g kv.1)) k = if (d.get? k).isSome then some (g k) else none := by
  induction d with
  | nil => rfl
  | cons a d ih =>
    obtain ⟨k', v⟩ := a
    rw [List.map_cons, Dict.get?_cons, ih, Dict.get?_cons]
    by_cases h : k' = k
    · subst h; simp
    · simp [h]

theorem flatten_length_sum {α : Type} {ms : List Channel} {f : Channel → List α}
    (h : ∀ ch ∈ ms, (f ch).length = ch.nbins) : (ms.map f).flatten.length = (ms.map (·.nbins)).sum := by
  induction ms with
  | nil => rfl
  | cons a ms ih =>
    simp only [List.map_cons, List.flatten_cons, List.length_append, List.sum_cons]
    rw [h a (by simp), ih fun c hc => h c (by simp [hc])]

theorem getD_sum_lt {pre post : List Channel} {ch : Channel} {b : Nat} (hb : b < ch.nbins) :
    (pre.map (·.nbins)).sum + b < ((pre ++ ch :: post).map (·.nbins)).sum := by
  simp; omega

theorem mergeSample_ok {ms : List Channel} (ha : Aligned ms) {e : Entry} {nm : String} (hn : e.sample.name = nm)
    (hsrc : ∃ ch ∈ ms, ∃ s ∈ ch.samples, s.name = nm ∧ e.sample.norm = s.norm ∧
      e.sample.nominal_norm = s.nominal_norm)
    (hk : ∀ k, (e.sample.impacts.get? k).isSome → ∃ ch ∈ ms, ∃ s ∈ ch.samples, s.name = nm ∧ (s.impacts.get? k).isSome)
    (hk' : ∀ ch ∈ ms, ∀ s ∈ ch.samples, s.name = nm → ∀ k, (s.impacts.get? k).isSome →
      (e.sample.impacts.get? k).isSome) :
    ∃ M, mergeSample ms e = .ok M ∧ IsMerged ms nm M ∧ M.norm = e.sample.norm := by
  classical
  subst hn
  -- yields
  let fy : Channel → List ℝ := fun ch => match getSample ch e.sample.name with
    | some s => s.nominal_yields.map fun y => y / s.nominal_norm * e.sample.nominal_norm
    | none => List.replicate ch.nbins 0
  have hy : ms.mapM (mergedYield e.sample) = .ok (ms.map fy) := by
    refine mapM_ok_iff.2 ?_
    rw [List.forall₂_map_right_iff]
    refine List.forall₂_same.2 fun ch hc => ?_
    simp only [mergedYield, fy]
    cases hg : getSample ch e.sample.name with
    | none => rfl
    | some s =>
      simp only
      rw [if_neg (ha.std ch hc s (getSample_some hg).1).2]
  have hfy : ∀ ch ∈ ms, (fy ch).length = ch.nbins := by
    intro ch hc
    simp only [fy]
    cases hg : getSample ch e.sample.name with
    | none => simp
    | some s => simp [(ha.std ch hc s (getSample_some hg).1).1.1]
  -- impacts
  let part : String → Channel → List (List (VarKey × ℝ)) := fun k ch =>
    match mergedPart k e.sample.name ch with
    | .ok l => l
    | .error _ => []
  have hpart : ∀ k, (e.sample.impacts.get? k).isSome → ∀ ch ∈ ms,
      mergedPart k e.sample.name ch = .ok (part k ch) ∧ (part k ch).length = ch.nbins ∧
      (∀ d ∈ part k ch, StdDict d) ∧ ∀ s, getSample ch e.sample.name = some s → part k ch = s.dicts k ch.nbins := by
    intro k hks ch hc
    obtain ⟨l, h1, h2, h3, h4⟩ := mergedPart_ok ha hc (hk k hks)
    have : part k ch = l := by simp only [part, h1]
    rw [this]; exact ⟨h1, h2, h3, h4⟩
  have hi : e.sample.impacts.mapM (mergedEntry ms e.sample.name) =
      .ok (e.sample.impacts.map fun kv => (kv.1, Impact.perBin (ms.map (part kv.1)).flatten)) := by
    refine mapM_ok_iff.2 ?_
    rw [List.forall₂_map_right_iff]
    refine List.forall₂_same.2 fun kv hkv => ?_
    have hks : (e.sample.impacts.get? kv.1).isSome := by
      obtain ⟨v, hv⟩ := (Dict.mem_keys_iff e.sample.impacts kv.1).1 (List.mem_map.2 ⟨kv, hkv, rfl⟩)
      rw [hv]; rfl
    unfold mergedEntry
    have : ms.mapM (mergedPart kv.1 e.sample.name) = .ok (ms.map (part kv.1)) := by
      refine mapM_ok_iff.2 ?_
      rw [List.forall₂_map_right_iff]
      exact List.forall₂_same.2 fun ch hc => (hpart kv.1 hks ch hc).1
    rw [this]; rfl
  refine ⟨⟨e.sample.name, e.sample.norm, e.sample.nominal_norm, (ms.map fy).flatten,
    e.sample.impacts.map fun kv => (kv.1, Impact.perBin (ms.map (part kv.1)).flatten)⟩,
    by unfold mergeSample; rw [hy, bind_ok, hi, bind_ok]; rfl, ?_, rfl⟩
  have hget : ∀ k, Dict.get? (e.sample.impacts.map fun kv => (kv.1, Impact.perBin (ms.map (part kv.1)).flatten)) k =
      if (e.sample.impacts.get? k).isSome then some (Impact.perBin (ms.map (part k)).flatten) else none :=
    fun k => get?_mapKey e.sample.impacts (fun k => Impact.perBin (ms.map (part k)).flatten) k
  refine ⟨rfl, ?_, ?_, ⟨flatten_length_sum hfy, ?_⟩, ?_, ?_, ?_⟩
  · obtain ⟨ch, hc, s, hs, _, _, h⟩ := hsrc
    simp only [h]; exact (ha.std ch hc s hs).2
  · obtain ⟨ch, hc, s, hs, h1, h2, _⟩ := hsrc
    exact ⟨ch, hc, s, hs, h1, h2⟩
  · intro par i hpi
    rw [hget] at hpi
    split_ifs at hpi with hks
    · obtain rfl := Option.some.inj hpi
      refine ⟨flatten_length_sum fun ch hc => (hpart par hks ch hc).2.1, fun d hd => ?_⟩
      obtain ⟨l, hl, hdl⟩ := List.mem_flatten.1 hd
      obtain ⟨ch, hc, rfl⟩ := List.mem_map.1 hl
      exact (hpart par hks ch hc).2.2.1 d hdl
  · intro ch hc s hs hsn k hks
    simp only [hget, hk' ch hc s hs hsn k hks, if_true, Option.isSome_some]
  · rintro pre ch post rfl s hg b hb
    have hc : ch ∈ pre ++ ch :: post := by simp
    have hpre : ((pre.map fy).flatten).length = (pre.map (·.nbins)).sum :=
      flatten_length_sum fun c hcm => hfy c (by simp [hcm])
    have hs := (getSample_some hg).1
    have hstd := (ha.std ch hc s hs).1
    refine ⟨?_, fun par => ?_⟩
    · simp only [List.map_append, List.map_cons]
      rw [flatten_getD_mid 0 _ _ _ _ _ hpre (by rw [hfy ch hc]; exact hb)]
      simp only [fy, hg]
      have hb' : b < s.nominal_yields.length := by rw [hstd.1]; exact hb
      simp [List.getD_eq_getElem?_getD, List.getElem?_eq_getElem hb']
    · simp only [Sample.dicts, hget]
      by_cases hks : (e.sample.impacts.get? par).isSome = true
      · simp only [hks, if_true, List.map_append, List.map_cons]
        have hpre' : ((pre.map (part par)).flatten).length = (pre.map (·.nbins)).sum :=
          flatten_length_sum fun c hcm => (hpart par hks c (by simp [hcm])).2.1
        rw [flatten_getD_mid zeroVar _ _ _ _ _ hpre' (by rw [(hpart par hks ch hc).2.1]; exact hb),
          (hpart par hks ch hc).2.2.2 s hg]
        rfl
      · have hno : s.impacts.get? par = none := by
          cases hsi : s.impacts.get? par with
          | none => rfl
          | some i => exact absurd (hk' ch hc s hs (getSample_some hg).2 par (by rw [hsi]; rfl)) hks
        simp only [hks, hno]
        simp [List.getD_eq_getElem?_getD, List.getElem?_replicate]
        split_ifs <;> rfl
  · rintro pre ch post rfl hg b hb
    have hc : ch ∈ pre ++ ch :: post := by simp
    have hpre : ((pre.map fy).flatten).length = (pre.map (·.nbins)).sum :=
      flatten_length_sum fun c hcm => hfy c (by simp [hcm])
    simp only [List.map_append, List.map_cons]
    rw [flatten_getD_mid 0 _ _ _ _ _ hpre (by rw [hfy ch hc]; exact hb)]
    simp only [fy, hg]
    simp [List.getD_eq_getElem?_getD, List.getElem?_replicate, hb]

end Merge
end Verif

namespace Verif
open Merge

theorem Dict.set_new {V : Type} (d : Dict V) {k : String} (h : k ∉ d.keys) (v : V) :
    d.set k v = d ++ [(k, v)] := by
  induction d with
  | nil => rfl
  | cons a d ih =>
    obtain ⟨k', w⟩ := a
    simp only [Dict.keys, List.map_cons, List.mem_cons, not_or] at h
    have := ih h.2
    simp only [Dict.set]
    rw [if_neg (fun e => h.1 e.symm), this]; rfl

namespace Merge

/-- The channels of a merged model. -/
theorem newChannels_eq {chans : List Channel} {names : List String} {merged : Channel}
    (hn : (chans.map (·.name)).Nodup) (hfresh : ∀ ch ∈ chans, ch.name ∉ names → ch.name ≠ merged.name)
    (hex : ∃ ch ∈ chans, ch.name ∈ names) :
    ∃ pre c0 post, chans = pre ++ c0 :: post ∧ c0.name ∈ names ∧ (∀ c ∈ pre, c.name ∉ names) ∧
      (newChannels chans names merged).1.values = pre ++ merged :: post.filter (fun c => decide (c.name ∉ names)) := by
  -- after the merged channel has been added
  have hA : ∀ (l : List Channel) (d : Dict Channel), (l.map (·.name)).Nodup →
      (∀ c ∈ l, c.name ∉ names → c.name ∉ d.keys) →
      (l.foldl (fun (st : Dict Channel × Bool) ch =>
        if ch.name ∉ names then (st.1.set ch.name ch, st.2)
        else if st.2 then st
        else (st.1.set merged.name merged, true)) (d, true)).1.values =
      d.values ++ l.filter (fun c => decide (c.name ∉ names)) := by
    intro l
    induction l with
    | nil => intro d _ _; simp
    | cons a l ih =>
      intro d hn hd
      rw [List.map_cons, List.nodup_cons] at hn
      rw [List.foldl_cons]
      by_cases ha : a.name ∉ names
      · simp only [ha, not_false_eq_true, if_true]
        rw [Dict.set_new d (hd a (by simp) ha), ih _ hn.2]
        · rw [List.filter_cons_of_pos (by simpa using ha)]
          simp [Dict.values]
        · intro c hc hcn
          simp only [Dict.keys_append, List.mem_append, not_or]
          refine ⟨hd c (by simp [hc]) hcn, ?_⟩
          simp only [Dict.keys, List.map_cons, List.map_nil, List.mem_singleton]
          intro he
          exact hn.1 (List.mem_map.2 ⟨c, hc, he⟩)
      · simp only [ha, if_false, if_true]
        rw [List.filter_cons_of_neg (by simpa using ha)]
        exact ih d hn.2 fun c hc => hd c (by simp [hc])
  have hB : ∀ (l : List Channel) (d : Dict Channel), (l.map (·.name)).Nodup →
      (∀ c ∈ l, c.name ∉ d.keys) → merged.name ∉ d.keys →
      (∀ ch ∈ l, ch.name ∉ names → ch.name ≠ merged.name) → (∃ ch ∈ l, ch.name ∈ names) →
      ∃ pre c0 post, l = pre ++ c0 :: post ∧ c0.name ∈ names ∧ (∀ c ∈ pre, c.name ∉ names) ∧
      (l.foldl (fun (st : Dict Channel × Bool) ch =>
        if ch.name ∉ names then (st.1.set ch.name ch, st.2)
        else if st.2 then st
        else (st.1.set merged.name merged, true)) (d, false)).1.values =
      d.values ++ (pre ++ merged :: post.filter (fun c => decide (c.name ∉ names))) := by
    intro l
    induction l with
    | nil => intro d _ _ _ _ h; obtain ⟨_, h, _⟩ := h; cases h
    | cons a l ih =>
      intro d hn hd hm hf hex
      rw [List.map_cons, List.nodup_cons] at hn
      rw [List.foldl_cons]
      by_cases ha : a.name ∉ names
      · obtain ⟨pre, c0, post, h1, h2, h3, h4⟩ := ih (d ++ [(a.name, a)]) hn.2
          (by
            intro c hc
            simp only [Dict.keys_append, List.mem_append, not_or]
            refine ⟨hd c (by simp [hc]), ?_⟩
            simp only [Dict.keys, List.map_cons, List.map_nil, List.mem_singleton]
            intro he
            exact hn.1 (List.mem_map.2 ⟨c, hc, he⟩))
          (by
            simp only [Dict.keys_append, List.mem_append, not_or]
            refine ⟨hm, ?_⟩
            simp only [Dict.keys, List.map_cons, List.map_nil, List.mem_singleton]
            exact fun he => hf a (by simp) ha he.symm)
          (fun c hc => hf c (by simp [hc]))
          (by
            obtain ⟨c, hc, hcn⟩ := hex
            rcases List.mem_cons.1 hc with rfl | hc
            · exact absurd hcn ha
            · exact ⟨c, hc, hcn⟩)
        refine ⟨a :: pre, c0, post, by rw [h1]; rfl, h2, fun c hc => ?_, ?_⟩
        · rcases List.mem_cons.1 hc with rfl | hc
          · exact ha
          · exact h3 c hc
        · simp only [ha, not_false_eq_true, if_true]
          rw [Dict.set_new d (hd a (by simp)), h4]
          simp [Dict.values]
      · have ha' : a.name ∈ names := not_not.1 ha
        refine ⟨[], a, l, rfl, ha', fun c hc => (by cases hc), ?_⟩
        simp only [ha, if_false]
        rw [show (if (false = true) then (d, false) else (d.set merged.name merged, true)) =
          (d.set merged.name merged, true) from rfl, Dict.set_new d hm, hA l _ hn.2]
        · simp [Dict.values]
        · intro c hc hcn
          simp only [Dict.keys_append, List.mem_append, not_or]
          refine ⟨hd c (by simp [hc]), ?_⟩
          simp only [Dict.keys, List.map_cons, List.map_nil, List.mem_singleton]
          exact hf c (by simp [hc]) hcn
  have := hB chans [] hn (fun c _ => by simp [Dict.keys]) (by simp [Dict.keys]) hfresh hex
  obtain ⟨pre, c0, post, h1, h2, h3, h4⟩ := this
  exact ⟨pre, c0, post, h1, h2, h3, h4⟩

theorem getChannel_ok {chans : List Channel} {nm : String} {c : Channel} (h : getChannel chans nm = .ok c) :
    c ∈ chans ∧ c.name = nm := by
  unfold getChannel at h
  split at h
  · next c' hc =>
    obtain rfl := Except.ok.inj h
    exact ⟨List.mem_of_find?_eq_some hc, by simpa using List.find?_some hc⟩
  · cases h

end Merge

/-- The inputs of a channel merge that preserves the predictions. -/
structure Mergeable {n P : Nat} (m : Mdl n P) (kind : String → ChKind) (names : List String)
    (mergedName : String) (obs : Option (List (ℝ × ℝ))) (ms : List Channel) : Prop where
  nonempty : names ≠ []
  nodup : names.Nodup
  selected : List.Forall₂ (fun nm ch => ch ∈ m.channels ∧ ch.name = nm) names ms
  channels : (m.channels.map (·.name)).Nodup
  fresh : ∀ ch ∈ m.channels, ch.name ∉ names → ch.name ≠ mergedName
  kinds : ∀ ch ∈ ms, ch.gaussian = false ∧ ((kind ch.name = .single ∧ ch.nbins = 1) ∨
    ∃ bins, kind ch.name = .multi bins ∧ ch.nbins = bins.length)
  bins : ∀ l, obs = some l → l.length = names.length ∧ ∀ ch ∈ ms, ch.nbins = 1
  aligned : Aligned ms

theorem Mergeable.mapM {n P : Nat} {m : Mdl n P} {kind names mergedName obs ms}
    (h : Mergeable m kind names mergedName obs ms) : names.mapM (getChannel m.channels) = .ok ms := by
  refine mapM_ok_iff.2 (h.selected.imp fun nm ch hc => ?_)
  obtain ⟨h1, rfl⟩ := hc
  unfold getChannel
  rw [find_of_nodup h.channels h1]

theorem Mergeable.mem {n P : Nat} {m : Mdl n P} {kind names mergedName obs ms}
    (h : Mergeable m kind names mergedName obs ms) {ch : Channel} (hc : ch ∈ ms) :
    ch ∈ m.channels ∧ ch.name ∈ names := by
  have hs := h.selected
  clear h
  induction hs with
  | nil => cases hc
  | cons h1 _ ih =>
    rcases List.mem_cons.1 hc with rfl | hc
    · exact ⟨h1.1, by simp [h1.2]⟩
    · exact ⟨(ih hc).1, by simp [(ih hc).2]⟩

theorem Mergeable.known {n P : Nat} {m : Mdl n P} {kind names mergedName obs ms}
    (h : Mergeable m kind names mergedName obs ms) {nm : String} (hc : nm ∈ names) :
    ∃ ch ∈ ms, ch ∈ m.channels ∧ ch.name = nm := by
  have hs := h.selected
  clear h
  induction hs with
  | nil => cases hc
  | @cons a b l l' h1 _ ih =>
    rcases List.mem_cons.1 hc with rfl | hc
    · exact ⟨b, by simp, h1⟩
    · obtain ⟨ch, h2, h3⟩ := ih hc
      exact ⟨ch, by simp [h2], h3⟩

theorem Mergeable.check {n P : Nat} {m : Mdl n P} {kind names mergedName obs ms}
    (h : Mergeable m kind names mergedName obs ms) :
    ∃ first ∈ ms, Merge.check kind m.channels names = .ok (some (ms, collect ms first)) := by
  have hne : ms ≠ [] := by
    intro he
    have := h.selected.length_eq
    rw [he] at this
    exact h.nonempty (List.length_eq_zero_iff.1 this)
  obtain ⟨first, hf, hl⟩ := longest_spec ms hne
  refine ⟨first, hf, ?_⟩
  unfold Merge.check
  rw [if_neg h.nonempty, if_neg, h.mapM, bind_ok, if_neg, hl]
  · rfl
  · rw [List.any_eq_true]
    rintro ⟨c, hc, hr⟩
    rcases (h.kinds c hc).2 with ⟨hk, _⟩ | ⟨_, hk, _⟩ <;> rw [hk] at hr <;> cases hr
  · rw [List.any_eq_true]
    rintro ⟨nm, hnm, hr⟩
    obtain ⟨ch, _, hc, rfl⟩ := h.known (List.mem_of_mem_tail hnm)
    simp only [Bool.not_eq_eq_eq_not, Bool.not_true, List.any_eq_false, beq_iff_eq] at hr
    exact hr ch hc rfl

/-- The result of a merge. -/
structure MergedInto {n P : Nat} (m : Mdl n P) (names : List String) (mergedName : String) (ms : List Channel)
    (m' : Mdl n P) (merged : Channel) (keys : List String) (pre : List Channel) (c0 : Channel)
    (post : List Channel) : Prop where
  split : m.channels = pre ++ c0 :: post
  isC0 : c0.name ∈ names
  isPre : ∀ c ∈ pre, c.name ∉ names
  model : m' = { m with cutoff := 0, channels := pre ++ merged :: post.filter (fun c => decide (c.name ∉ names)) }
  name : merged.name = mergedName
  gaussian : merged.gaussian = false
  nbins : merged.nbins = (ms.map (·.nbins)).sum
  nodup : keys.Nodup
  isKeys : ∀ ch ∈ ms, ∀ s ∈ ch.samples, s.name ∈ keys
  samples : List.Forall₂ (IsMerged ms) keys merged.samples

theorem mergeChannels_parts {n P : Nat} {m : Mdl n P} {kind names mergedName obs ms}
    (h : Mergeable m kind names mergedName obs ms) (hset : m.NpDataSet) {vals : Dict ℝ}
    (hv : m.ctx.realVals m.poiInit = .ok vals) :
    ∃ entries samples m' merged keys pre c0 post,
      Merge.check kind m.channels names = .ok (some (ms, entries)) ∧
      entries.values.mapM (mergeSample ms) = .ok samples ∧
      merged = ⟨mergedName, false, mergedBins kind obs ms, fun _ _ => 0, samples⟩ ∧
      m'.channels = (newChannels m.channels names merged).1.values ∧
      m.mergeChannels kind names mergedName obs =
        .ok ({ m with channels := mutated m.channels (entries.values.zip samples) }, some m') ∧
      MergedInto m names mergedName ms m' merged keys pre c0 post := by
  obtain ⟨first, hf, hcheck⟩ := h.check
  have hcol := collect_spec hf
  -- merged samples
  have hent : ∀ nm e, (nm, e) ∈ collect ms first → ∃ M, mergeSample ms e = .ok M ∧ IsMerged ms nm M ∧
      M.norm = e.sample.norm := by
    intro nm e he
    have hg := (Dict.get?_eq_some_iff _ hcol.nodup _ _).2 he
    obtain ⟨h1, ⟨s, hs, h2, h3, h4⟩, h5⟩ := hcol.entry nm e hg
    have hmem : ∀ {q : String × Sample}, q ∈ ms.flatMap withSource → ∃ ch ∈ ms, q.2 ∈ ch.samples := by
      intro q hq
      obtain ⟨ch, hc, hq⟩ := List.mem_flatMap.1 hq
      obtain ⟨s, hs, rfl⟩ := List.mem_map.1 hq
      exact ⟨ch, hc, hs⟩
    refine mergeSample_ok h.aligned h1 ?_ ?_ ?_
    · obtain ⟨ch, hc, hs'⟩ := hmem hs
      exact ⟨ch, hc, s, hs', h2, h3, h4⟩
    · intro k hk
      obtain ⟨q, hq, h6, h7⟩ := h5 k hk
      obtain ⟨ch, hc, hs'⟩ := hmem hq
      exact ⟨ch, hc, q.2, hs', h6, h7⟩
    · intro ch hc s hs hsn k hk
      obtain ⟨e', he', hk'⟩ := hcol.seen (ch.name, s) (List.mem_flatMap.2 ⟨ch, hc, List.mem_map.2 ⟨s, hs, rfl⟩⟩)
      simp only [hsn, hg] at he'
      obtain rfl := Option.some.inj he'
      exact hk' k hk
  obtain ⟨samples, hsamp, hfor⟩ : ∃ samples, (collect ms first).values.mapM (mergeSample ms) = .ok samples ∧
      List.Forall₂ (IsMerged ms) (collect ms first).keys samples := by
    have key : ∀ l : Dict Entry, (∀ q ∈ l, q ∈ collect ms first) →
        ∃ samples, (Dict.values l).mapM (mergeSample ms) = .ok samples ∧
          List.Forall₂ (IsMerged ms) (Dict.keys l) samples := by
      intro l
      induction l with
      | nil => intro _; exact ⟨[], rfl, .nil⟩
      | cons q l ih =>
        intro hl
        obtain ⟨ss, h1, h2⟩ := ih fun r hr => hl r (by simp [hr])
        obtain ⟨M, h3, h4, _⟩ := hent q.1 q.2 (hl q (by simp))
        refine ⟨M :: ss, ?_, .cons h4 h2⟩
        simp only [Dict.values, List.map_cons] at h1 ⊢
        rw [List.mapM_cons, h3, bind_ok, h1]; rfl
    exact key _ fun q hq => hq
  -- the constructor leaves the samples unchanged
  have hsetup : samples.mapM (fun s => Mdl.setUpSample { m with cutoff := 0 } vals
      ⟨s.name, s.norm, some s.nominal_norm, some s.nominal_yields, s.impacts⟩) = .ok samples := by
    refine mapM_ok_iff.2 (List.forall₂_same.2 fun M hM => ?_)
    obtain ⟨i, hi, rfl⟩ := List.mem_iff_getElem.1 hM
    have hm := (List.forall₂_iff_get.1 hfor).2 i (by rw [(List.forall₂_iff_get.1 hfor).1]; exact hi) hi
    simp only [List.get_eq_getElem] at hm
    unfold Mdl.setUpSample
    refine Mdl.setNpData_same (nn := samples[i].nominal_norm) (ys := samples[i].nominal_yields) rfl rfl fun par hp => ?_
    obtain ⟨p, rfl⟩ := List.mem_ofFn.1 hp
    obtain ⟨ch, hc, s, hs, hsn, hnorm⟩ := hm.source
    cases hno : samples[i].norm with
    | number v => exact .inr ⟨v, by simp [hno]⟩
    | expr ex =>
      left
      obtain ⟨im, him⟩ := hset ch (h.mem hc).1 s hs ex (by rw [← hnorm, hno]) p
      exact Option.isSome_iff_exists.1 (hm.keys ch hc s hs hsn _ (by rw [him]; rfl))
  set nb := mergedBins kind obs ms with hnb
  have hnbins : nb = (ms.map (·.nbins)).sum := by
    cases ho : obs with
    | none =>
      rw [hnb, ho]
      simp only [mergedBins]
      congr 1
      refine List.map_congr_left fun c hc => ?_
      rcases (h.kinds c hc).2 with ⟨hk, h1⟩ | ⟨b, hk, h1⟩ <;> rw [hk, h1] <;> rfl
    | some l =>
      rw [hnb, ho]
      simp only [mergedBins]
      obtain ⟨h1, h2⟩ := h.bins l ho
      rw [h1, h.selected.length_eq, List.map_congr_left (g := fun _ => 1) (fun c hc => h2 c hc)]
      simp
  obtain ⟨pre, c0, post, h1, h2, h3, h4⟩ := newChannels_eq (merged := ⟨mergedName, false, nb, fun _ _ => 0, samples⟩)
    h.channels h.fresh (by
      obtain ⟨nm, hnm⟩ := List.exists_mem_of_ne_nil _ h.nonempty
      obtain ⟨ch, _, hc, rfl⟩ := h.known hnm
      exact ⟨ch, hc, hnm⟩)
  refine ⟨collect ms first, samples, _,
    ⟨mergedName, false, nb, fun _ _ => 0, samples⟩, (collect ms first).keys, pre, c0, post, hcheck, hsamp, rfl,
    h4.symm, ?_, ⟨h1, h2, h3, rfl, rfl, rfl, hnbins, hcol.nodup, ?_, hfor⟩⟩
  · unfold Mdl.mergeChannels
    rw [hcheck, bind_ok]
    simp only
    rw [hsamp, bind_ok, if_neg]
    · have : (Mdl.ctx { m with cutoff := 0 }).realVals m.poiInit = .ok vals := hv
      simp only [pure_ok, bind_ok]
      rw [this, bind_ok, hsetup, bind_ok, ← hnb, h4]
    · rintro ⟨ho, hl⟩
      obtain ⟨l, ho⟩ := Option.isSome_iff_exists.1 ho
      rw [ho] at hl
      exact hl (h.bins l ho).1
  · intro ch hc s hs
    obtain ⟨e, he, _⟩ := hcol.seen (ch.name, s) (List.mem_flatMap.2 ⟨ch, hc, List.mem_map.2 ⟨s, hs, rfl⟩⟩)
    exact (Dict.mem_keys_iff _ _).2 ⟨e, he⟩

theorem mergeChannels_ok {n P : Nat} {m : Mdl n P} {kind names mergedName obs ms}
    (h : Mergeable m kind names mergedName obs ms) (hset : m.NpDataSet) {vals : Dict ℝ}
    (hv : m.ctx.realVals m.poiInit = .ok vals) :
    ∃ done m' merged keys pre c0 post,
      m.mergeChannels kind names mergedName obs =
        .ok ({ m with channels := mutated m.channels done }, some m') ∧
      MergedInto m names mergedName ms m' merged keys pre c0 post := by
  obtain ⟨entries, samples, m', merged, keys, pre, c0, post, -, -, -, -, h1, h2⟩ := mergeChannels_parts h hset hv
  exact ⟨_, m', merged, keys, pre, c0, post, h1, h2⟩

end Verif
