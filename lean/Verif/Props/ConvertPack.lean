import Verif.Props.ConvertWs
import Mathlib.Algebra.BigOperators.Field
/-!
# C87: packing of the impacts by `convert_ws.py` (`--packing-tolerance`)
-/
namespace Verif.Props
open Verif Conv

/-- The impacts recorded in `n` bins for the variations `K`. -/
def impactTable (n : ℕ) (K : List ℝ) (y : ℕ → ℝ → ℝ) : List (List (VarKey × ℝ)) :=
  (List.range n).map fun b => K.map fun k => (VarKey.num k, y b k)

/-- The mean over the bins. -/
noncomputable def binMean (n : ℕ) (y : ℕ → ℝ → ℝ) (k : ℝ) : ℝ := (∑ b ∈ Finset.range n, y b k) / n

theorem lookupKey_table (f : ℝ → ℝ) : ∀ (K : List ℝ) (k : ℝ), k ∈ K → lookupKey (K.map fun k => (VarKey.num k, f k)) (.num k) = .ok (f k) := by
  intro K
  induction K with
  | nil => intro k h; cases h
  | cons a K ih =>
    intro k h
    by_cases ha : a = k
    · subst ha; simp [lookupKey]
    · rw [List.map_cons, lookupKey, if_neg (by simpa using ha)]
      exact ih k ((List.mem_cons.1 h).resolve_left (Ne.symm ha))

theorem average_table (n : ℕ) (K : List ℝ) (y : ℕ → ℝ → ℝ) :
    average (impactTable n K y) (K.map VarKey.num) = .ok (K.map fun k => (VarKey.num k, binMean n y k)) := by
  unfold average
  have : ∀ k ∈ K, (do
      let ys ← (impactTable n K y).mapM fun d => lookupKey d (VarKey.num k)
      return (VarKey.num k, (ys.map fun y' => y' / ((impactTable n K y).length : ℝ)).sum) : Except PyErr (VarKey × ℝ)) =
      .ok (VarKey.num k, binMean n y k) := by
    intro k hk
    have h1 : (impactTable n K y).mapM (fun d => lookupKey d (VarKey.num k)) = .ok ((List.range n).map fun b => y b k) := by
      rw [mapM_ok_iff, impactTable, List.forall₂_map_left_iff, List.forall₂_map_right_iff, List.forall₂_same]
      intro b _
      exact lookupKey_table (y b) K k hk
    rw [h1]
    simp only [bind_ok, pure_ok, List.map_map, impactTable, List.length_map, List.length_range]
    congr 2
    rw [binMean, Finset.sum_div]
    rw [Finset.sum_eq_multiset_sum, Finset.range_val, ← Multiset.coe_range, Multiset.map_coe, Multiset.sum_coe]
    rfl
  rw [mapM_ok_iff, List.forall₂_map_left_iff, List.forall₂_map_right_iff, List.forall₂_same]
  exact this

theorem deviates_table (tol : ℝ) (K : List ℝ) (f : ℝ → ℝ) (k x : ℝ) (hk : k ∈ K) :
    deviates tol (K.map fun k => (VarKey.num k, f k)) (VarKey.num k, x) = true ↔ tol < |x - f k| := by
  simp [deviates, lookupKey_table f K k hk]

/-- All the impacts are within the tolerance of their mean over the bins. -/
def CloseToMean (tol : ℝ) (n : ℕ) (K : List ℝ) (y : ℕ → ℝ → ℝ) : Prop := ∀ b < n, ∀ k ∈ K, |y b k - binMean n y k| ≤ tol

open Classical in
/-- C87.  The impacts of a parameter are replaced by their (rounded) means over the bins exactly when all of them are within the tolerance of
these means, and then left out exactly when all the rounded means are within the tolerance of 0; otherwise they stay one per bin, and those
which are not within the tolerance are rounded. -/
theorem c87_pack (tol : ℝ) (trim : ℝ → ℝ) (n : ℕ) (hn : 0 < n) (K : List ℝ) (y : ℕ → ℝ → ℝ) :
    pack tol trim (impactTable n K y) = .ok (
      if CloseToMean tol n K y then
        if ∀ k ∈ K, |trim (binMean n y k)| ≤ tol then none else some (.common (K.map fun k => (VarKey.num k, trim (binMean n y k))))
      else some (.perBin ((List.range n).map fun b => K.map fun k =>
        (VarKey.num k, if tol < |y b k - binMean n y k| then trim (y b k) else y b k)))) := by
  obtain ⟨m, rfl⟩ : ∃ m, n = m + 1 := ⟨n - 1, by omega⟩
  have hcons : impactTable (m + 1) K y = (K.map fun k => (VarKey.num k, y 0 k)) :: (impactTable (m + 1) K y).tail := by
    rw [impactTable, List.range_succ_eq_map]; rfl
  have hkeys : (K.map fun k => (VarKey.num k, y 0 k)).map Prod.fst = K.map VarKey.num := by simp [List.map_map, Function.comp_def]
  rw [hcons, pack, ← hcons, hkeys, average_table]
  simp only [bind_ok]
  have hany : ((impactTable (m + 1) K y).any fun d => d.any (deviates tol (K.map fun k => (VarKey.num k, binMean (m + 1) y k)))) = true ↔
      ¬ CloseToMean tol (m + 1) K y := by
    rw [List.any_eq_true]
    unfold CloseToMean
    push Not
    constructor
    · rintro ⟨d, hd, h⟩
      obtain ⟨e, he, hdev⟩ := List.any_eq_true.1 h
      obtain ⟨b, hb, rfl⟩ := List.mem_map.1 hd
      obtain ⟨k, hk, rfl⟩ := List.mem_map.1 he
      exact ⟨b, List.mem_range.1 hb, k, hk, (deviates_table tol K _ k _ hk).1 hdev⟩
    · rintro ⟨b, hb, k, hk, h⟩
      exact ⟨_, List.mem_map.2 ⟨b, List.mem_range.2 hb, rfl⟩, List.any_eq_true.2 ⟨_, List.mem_map.2 ⟨k, hk, rfl⟩, (deviates_table tol K _ k _ hk).2 h⟩⟩
  by_cases hc : CloseToMean tol (m + 1) K y
  · rw [if_neg (by rw [hany]; exact fun h => h hc), if_pos hc]
    have hall : (((K.map fun k => (VarKey.num k, binMean (m + 1) y k)).map fun e => (e.1, trim e.2)).all fun e => decide (|e.2| ≤ tol)) = true ↔
        ∀ k ∈ K, |trim (binMean (m + 1) y k)| ≤ tol := by
      simp [List.all_eq_true]
    by_cases h0 : ∀ k ∈ K, |trim (binMean (m + 1) y k)| ≤ tol
    · rw [if_pos (hall.2 h0), if_pos h0]; rfl
    · rw [if_neg (fun h => h0 (hall.1 h)), if_neg h0]; simp [List.map_map, Function.comp_def]
  · rw [if_pos (hany.2 hc), if_neg hc]
    simp only [pure_ok, impactTable, List.map_map, Function.comp_def]
    congr 3
    refine List.map_congr_left fun b _ => List.map_congr_left fun k hk => ?_
    by_cases h : tol < |y b k - binMean (m + 1) y k|
    · rw [if_pos ((deviates_table tol K _ k _ hk).2 h), if_pos h]
    · rw [if_neg (fun h' => h ((deviates_table tol K _ k _ hk).1 h')), if_neg h]

/-- The impact which a model finds in bin `b` for variation `k`, when `r` was written for this parameter. -/
def ReadAs (r : Option Impact) (nb : ℕ) (b : ℕ) (k z : ℝ) : Prop :=
  ∃ smp : Sample, smp.nominal_yields.length = nb ∧ smp.impacts.get? "par" = r ∧ ∃ l, smp.impact "par" k = .ok l ∧ l[b]? = some z

theorem mean_bound (n : ℕ) (hn : 0 < n) (y : ℕ → ℝ → ℝ) (k M : ℝ) (hM : ∀ b < n, |y b k| ≤ M) : |binMean n y k| ≤ M := by
  rw [binMean, abs_div, abs_of_pos (by exact_mod_cast hn : (0 : ℝ) < n), div_le_iff₀ (by exact_mod_cast hn)]
  calc |∑ b ∈ Finset.range n, y b k| ≤ ∑ b ∈ Finset.range n, |y b k| := Finset.abs_sum_le_sum_abs _ _
    _ ≤ ∑ _b ∈ Finset.range n, M := Finset.sum_le_sum fun b hb => hM b (Finset.mem_range.1 hb)
    _ = M * n := by rw [Finset.sum_const, Finset.card_range, nsmul_eq_mul, mul_comm]

theorem lookupVar_table (f : ℝ → ℝ) : ∀ (K : List ℝ) (k : ℝ), k ∈ K → lookupVar (K.map fun k => (VarKey.num k, f k)) k = .ok (f k) := by
  intro K
  induction K with
  | nil => intro k h; cases h
  | cons a K ih =>
    intro k h
    by_cases ha : a = k
    · subst ha; simp [lookupVar]
    · rw [List.map_cons, lookupVar, if_neg (by simpa using ha)]
      exact ih k ((List.mem_cons.1 h).resolve_left (Ne.symm ha))

/-- C87.  What the model finds after packing, in any bin and for any variation, is within twice the tolerance of the impact that was computed
(within the tolerance, when the parameter is not left out), up to the rounding. -/
theorem c87_error (tol η M : ℝ) (htol : 0 ≤ tol) (hη : 0 ≤ η) (trim : ℝ → ℝ) (htrim : ∀ x, |trim x - x| ≤ η * |x|) (n : ℕ) (K : List ℝ) (y : ℕ → ℝ → ℝ)
    (r : Option Impact) (hr : pack tol trim (impactTable n K y) = .ok r) (b : ℕ) (hb : b < n) (k : ℝ) (hk : k ∈ K)
    (hM : ∀ b < n, |y b k| ≤ M) (z : ℝ) (hz : ReadAs r n b k z) :
    |z - y b k| ≤ 2 * tol + η * M ∧ (r ≠ none → |z - y b k| ≤ tol + η * M) := by
  have hn : 0 < n := by omega
  rw [c87_pack tol trim n hn K y] at hr
  have hr := Except.ok.inj hr
  have hmean := mean_bound n hn y k M hM
  obtain ⟨smp, hlen, hget, l, hl, hlb⟩ := hz
  have hmt := htrim (binMean n y k)
  have hmt' : η * |binMean n y k| ≤ η * M := mul_le_mul_of_nonneg_left hmean hη
  have hM0 : 0 ≤ η * M := mul_nonneg hη (le_trans (abs_nonneg _) (hM b hb))
  by_cases hc : CloseToMean tol n K y
  · rw [if_pos hc] at hr
    have hcb := hc b hb k hk
    by_cases h0 : ∀ k ∈ K, |trim (binMean n y k)| ≤ tol
    · rw [if_pos h0] at hr
      subst hr
      rw [Sample.impact, hget] at hl
      dsimp only at hl
      have := Except.ok.inj hl
      rw [← this] at hlb
      have hz0 : z = 0 := by
        rw [List.getElem?_replicate] at hlb
        split at hlb
        · exact (Option.some.inj hlb).symm
        · cases hlb
      subst hz0
      refine ⟨?_, fun h => absurd rfl h⟩
      have h1 := h0 k hk
      rw [abs_le] at *
      constructor <;> linarith [hmt.1, hmt.2, hcb.1, hcb.2, h1.1, h1.2]
    · rw [if_neg h0] at hr
      subst hr
      rw [Sample.impact, hget] at hl
      dsimp only at hl
      rw [lookupVar_table (fun k => trim (binMean n y k)) K k hk] at hl
      simp only [bind_ok, pure_ok] at hl
      have := Except.ok.inj hl
      rw [← this] at hlb
      have hz0 : z = trim (binMean n y k) := by
        rw [List.getElem?_replicate] at hlb
        split at hlb
        · exact (Option.some.inj hlb).symm
        · cases hlb
      subst hz0
      have hb1 : |trim (binMean n y k) - y b k| ≤ tol + η * M := by
        rw [abs_le] at *
        constructor <;> linarith [hmt.1, hmt.2, hcb.1, hcb.2]
      exact ⟨by linarith, fun _ => hb1⟩
  · rw [if_neg hc] at hr
    subst hr
    rw [Sample.impact, hget] at hl
    dsimp only at hl
    rw [mapM_ok_iff, List.forall₂_map_left_iff] at hl
    obtain ⟨z', hz', hzz⟩ := forall₂_get hl b b (by simp [hb])
    rw [hlb] at hz'
    cases hz'
    rw [lookupVar_table (fun k => if tol < |y b k - binMean n y k| then trim (y b k) else y b k) K k hk] at hzz
    have := Except.ok.inj (ε := PyErr) hzz
    have hb1 : |z - y b k| ≤ tol + η * M := by
      rw [← this]
      split
      · exact le_trans (htrim _) (le_trans (mul_le_mul_of_nonneg_left (hM b hb) hη) (by linarith))
      · rw [sub_self, abs_zero]; linarith
    exact ⟨by linarith, fun _ => hb1⟩

/-- Without a positive tolerance and without rounding, packing changes nothing of what the model finds. -/
theorem c87_exact (n : ℕ) (K : List ℝ) (y : ℕ → ℝ → ℝ) (r : Option Impact) (hr : pack 0 id (impactTable n K y) = .ok r)
    (b : ℕ) (hb : b < n) (k : ℝ) (hk : k ∈ K) (z : ℝ) (hz : ReadAs r n b k z) : z = y b k := by
  have := (c87_error 0 0 (∑ b ∈ Finset.range n, |y b k|) le_rfl le_rfl id (by simp) n K y r hr b hb k hk
    (fun b hb => Finset.single_le_sum (f := fun b => |y b k|) (fun _ _ => abs_nonneg _) (Finset.mem_range.2 hb)) z hz).1
  simp only [mul_zero, zero_mul, add_zero] at this
  exact sub_eq_zero.1 (abs_eq_zero.1 (le_antisymm this (abs_nonneg _)))

/-- What is written can be read, for every bin and variation. -/
theorem c87_readable (tol : ℝ) (trim : ℝ → ℝ) (n : ℕ) (hn : 0 < n) (K : List ℝ) (y : ℕ → ℝ → ℝ) (smp : Sample) (hl : smp.nominal_yields.length = n)
    (hr : pack tol trim (impactTable n K y) = .ok (smp.impacts.get? "par")) (k : ℝ) (hk : k ∈ K) :
    ∃ l, smp.impact "par" k = .ok l ∧ l.length = n := by
  rw [c87_pack tol trim n hn K y] at hr
  have hr := Except.ok.inj hr
  unfold Sample.impact
  rw [← hr]
  by_cases hc : CloseToMean tol n K y
  · rw [if_pos hc]
    by_cases h0 : ∀ k ∈ K, |trim (binMean n y k)| ≤ tol
    · rw [if_pos h0]; exact ⟨_, rfl, by simp [hl]⟩
    · rw [if_neg h0]
      dsimp only
      rw [lookupVar_table (fun k => trim (binMean n y k)) K k hk]
      exact ⟨_, rfl, by simp [hl]⟩
  · rw [if_neg hc]
    dsimp only
    refine ⟨(List.range n).map fun b => if tol < |y b k - binMean n y k| then trim (y b k) else y b k, ?_, by simp⟩
    rw [mapM_ok_iff, List.forall₂_map_left_iff, List.forall₂_map_right_iff, List.forall₂_same]
    intro b _
    exact lookupVar_table (fun k => if tol < |y b k - binMean n y k| then trim (y b k) else y b k) K k hk

/-- Finding F120: with `--variations 1,2` a parameter that is left out by the packing has only the variations ±1 for the model, and the
others four: the numbers of variations are not the same for all the parameters any more, which `set_internal_vars` does not handle
(finding F07, `c08_mixed_widths_fails`). -/
theorem c87_left_out_width (tol : ℝ) (trim : ℝ → ℝ) (n : ℕ) (hn : 0 < n) (K : List ℝ) (y : ℕ → ℝ → ℝ) (hy : ∀ b < n, ∀ k ∈ K, y b k = 0) (htrim : trim 0 = 0)
    (htol : 0 ≤ tol) (smp : Sample) (hr : pack tol trim (impactTable n K y) = .ok (smp.impacts.get? "par")) :
    smp.availableVariations "par" = [1, -1] := by
  have hm : ∀ k ∈ K, binMean n y k = 0 := by
    intro k hk
    rw [binMean, Finset.sum_eq_zero fun b hb => hy b (Finset.mem_range.1 hb) k hk, zero_div]
  rw [c87_pack tol trim n hn K y, if_pos (show CloseToMean tol n K y from fun b hb k hk => by rw [hm k hk, hy b hb k hk]; simpa using htol),
    if_pos (fun k hk => by rw [hm k hk, htrim]; simpa using htol)] at hr
  have hr := Except.ok.inj hr
  rw [Sample.availableVariations, ← hr]

open Classical in
/-- The relative change of the yield of a sample of the workspace; 0 for an empty one. -/
noncomputable def relChange (c : WSChannel) (s : Fin c.samples.length) (v : Vals) (par : NuisPar) (i : ℕ) (x : ℝ) : ℝ :=
  if yieldOf c i s v = 0 then 0 else yieldOf c i s (moved v par (x * par.error)) / yieldOf c i s v - 1

/-- What is packed, with the default `--epsilon`, are the relative changes of the yields of the workspace: with `c87_error`, after packing the
model finds them up to twice the tolerance. -/
theorem c87_table (trim : ℝ → ℝ) (c : WSChannel) (vars : List ℝ) (pars : List NuisPar) (v : Vals)
    (hn : ∀ par ∈ pars, par.nominal = v par.name) (bins : List BinOut) (w : Vals) (hb : fillChannel trim c 1 vars pars v = .ok (bins, w))
    (hnames : (pars.map NuisPar.name).Nodup) (s : Fin c.samples.length) (par : NuisPar) (hp : par ∈ pars) :
    (sampleOut bins pars s).2.get? par.name = some (.perBin (impactTable c.nbins vars (relChange c s v par))) := by
  obtain ⟨k, hk⟩ := List.mem_iff_getElem?.1 hp
  obtain ⟨_, hf⟩ := (c86_entries trim c 1 vars pars v hn _ _).1 hb
  have := get?_named (fun pk => Impact.perBin (bins.map fun b => (b.impacts.getD pk.2 []).map fun e => (.num e.1, e.2.getD (s : ℕ) 0))) pars 0 hnames k par hk
  simp only [sampleOut]
  rw [this]
  congr 2
  unfold impactTable
  rw [zero_add]
  clear this hb
  generalize List.range c.nbins = is at hf ⊢
  induction hf with
  | nil => rfl
  | cons hab htail ih =>
    rw [List.map_cons, List.map_cons, ih]
    congr 1
    obtain ⟨d, hd, hdi⟩ := forall₂_get hab.impacts k par hk
    rw [List.getD_eq_getElem?_getD, hd, Option.getD_some]
    clear hd hab ih hk hp hn htail
    induction hdi with
    | nil => rfl
    | cons he _ ih2 =>
      rw [List.map_cons, List.map_cons, ih2]
      congr 1
      obtain ⟨h1, h2, h3⟩ := he
      have h4 := h3 s
      rw [impactIs_one, mul_one] at h4
      rw [h1]
      unfold relChange
      rcases h4 with ⟨h0, hy⟩ | ⟨h0, hy⟩
      · rw [if_pos h0, hy]
      · rw [if_neg h0, ← hy, mul_div_cancel_left₀ _ h0, add_sub_cancel_left]

/-- The three cases. -/
example :
    pack (1 / 100) id (impactTable 2 [1, -1] fun b k => k * (1 / 10 + b / 1000)) = .ok (some (.common [(.num 1, 201 / 2000), (.num (-1), -201 / 2000)])) ∧
    pack (1 / 100) id (impactTable 2 [1, -1] fun b k => k * b / 1000) = .ok none ∧
    pack (1 / 100) id (impactTable 2 [1, -1] fun b k => k * b) =
      .ok (some (.perBin [[(.num 1, 0), (.num (-1), 0)], [(.num 1, 1), (.num (-1), -1)]])) := by
  have hr2 : List.range 2 = [0, 1] := rfl
  refine ⟨?_, ?_, ?_⟩
  · rw [c87_pack _ _ 2 (by norm_num), if_pos, if_neg]
    · norm_num [binMean, Finset.sum_range_succ]
    · intro h; have := h 1 (by simp); norm_num [binMean, Finset.sum_range_succ, abs_of_pos] at this
    · intro b hb k hk
      have hk : k = 1 ∨ k = -1 := by simpa using hk
      interval_cases b <;> rcases hk with rfl | rfl <;> norm_num [binMean, Finset.sum_range_succ, abs_le]
  · rw [c87_pack _ _ 2 (by norm_num), if_pos, if_pos]
    · intro k hk
      have hk : k = 1 ∨ k = -1 := by simpa using hk
      rcases hk with rfl | rfl <;> norm_num [binMean, Finset.sum_range_succ, abs_le]
    · intro b hb k hk
      have hk : k = 1 ∨ k = -1 := by simpa using hk
      interval_cases b <;> rcases hk with rfl | rfl <;> norm_num [binMean, Finset.sum_range_succ, abs_le]
  · rw [c87_pack _ _ 2 (by norm_num), if_neg]
    · simp [hr2]
    · intro h; have := h 0 (by norm_num) 1 (by simp); norm_num [binMean, Finset.sum_range_succ, abs_le] at this

end Verif.Props
