import Verif.Lemmas.PyhfLoad
import Verif.Lemmas.RemoveNps
/-! # The rates of imported pyhf models -/
namespace Verif
namespace Pyhf
open Markup

/-- The clamp of `impact_coefficients` (exponential mode). -/
noncomputable def clamp (x : ℝ) : ℝ := max (min x 100) (1 / 100)

theorem clamp_id {x : ℝ} (h : 1 / 100 ≤ x ∧ x ≤ 100) : clamp x = x := by
  unfold clamp
  rw [min_eq_left h.2, max_eq_left h.1]

theorem clamp_one : clamp 1 = 1 := clamp_id (by norm_num)

/-- The impacts of a sample in a bin. -/
noncomputable def CSample.ud (s : CSample) (k : String) (b : Nat) : UpDown :=
  match s.impacts.get? k with
  | none => (0, 0)
  | some (.common d) => d
  | some (.perBin l) => l.getD b (0, 0)

theorem lookup_up (d : UpDown) : lookupVar (udVars d) 1 = .ok d.1 := by simp [udVars, lookupVar]

theorem lookup_down (d : UpDown) : lookupVar (udVars d) (-1) = .ok d.2 := by
  have : ¬ (1 : ℝ) = -1 := by norm_num
  simp [udVars, lookupVar, this]

theorem lookup_setting (d : UpDown) {t : ℝ} (ht : t = 1 ∨ t = -1) :
    lookupVar (udVars d) t = .ok (setting t d.1 d.2 0) := by
  rcases ht with rfl | rfl
  · rw [lookup_up]; simp [setting]
  · rw [lookup_down]
    have : ¬ (-1 : ℝ) = 1 := by norm_num
    simp [setting, this]

theorem final_impact {names : List String} {s : CSample} {nb : Nat} (hl : s.data.length = nb)
    (k : String) {t : ℝ} (ht : t = 1 ∨ t = -1) {b : Nat} (hb : b < nb)
    (hi : ∀ i, s.impacts.get? k = some i → PImpOk nb i) :
    ∃ r, (finalSample names s).impact k t = .ok r ∧ r.getD b 0 = setting t (s.ud k b).1 (s.ud k b).2 0 := by
  have hz : setting t 0 0 0 = 0 := by unfold setting; split_ifs <;> rfl
  unfold Sample.impact
  have hg : (finalSample names s).impacts.get? k = _ := get?_final names s k
  rw [hg]
  unfold CSample.ud
  have hrep : ∀ y : ℝ, (List.replicate (finalSample names s).nominal_yields.length y).getD b 0 = y := by
    intro y
    have : (finalSample names s).nominal_yields.length = nb := hl
    rw [this, List.getD_eq_getElem _ _ (by simpa using hb), List.getElem_replicate]
  cases hk : s.impacts.get? k with
  | none =>
    by_cases hc : s.norm.isSome = true ∧ k ∈ names
    · refine ⟨List.replicate (finalSample names s).nominal_yields.length 0, ?_, ?_⟩
      · have : zeroImp = .common (udVars (0, -0)) := rfl
        simp only [Option.map_none, Option.none_or, if_pos hc, this, lookup_setting _ ht, bind_ok, pure_ok]
        rw [neg_zero, hz]
      · rw [hrep, hz]
    · exact ⟨List.replicate (finalSample names s).nominal_yields.length 0,
        by simp only [Option.map_none, Option.none_or, if_neg hc], by rw [hrep, hz]⟩
  | some i =>
    cases i with
    | common d =>
      refine ⟨_, by simp only [Option.map_some, Option.some_or, rawImp, lookup_setting _ ht, bind_ok]; rfl, ?_⟩
      rw [hrep]
    | perBin l =>
      have hlen : l.length = nb := hi _ hk
      refine ⟨l.map fun d => setting t d.1 d.2 0, ?_, ?_⟩
      · simp only [Option.map_some, Option.some_or, rawImp]
        rw [List.mapM_map]
        exact mapM_map_ok (fun d _ => lookup_setting d ht)
      · have hb' : b < l.length := by omega
        rw [List.getD_eq_getElem _ _ (by simpa using hb'), List.getElem_map]
        dsimp only
        rw [List.getD_eq_getElem _ _ hb']

theorem final_supplied {names : List String} {s : CSample} {nb : Nat} (hl : s.data.length = nb)
    (hi : ∀ k i, s.impacts.get? k = some i → PImpOk nb i) (k : String) {t : ℝ} (ht : t = 0 ∨ t = 1 ∨ t = -1)
    {b : Nat} (hb : b < nb) :
    Props.SuppliedImpact (finalSample names s) k b t (setting t (s.ud k b).1 (s.ud k b).2 0) := by
  rcases ht with rfl | ht
  · left
    simp [setting]
  · right
    refine ⟨?_, ?_, ?_⟩
    · rcases ht with rfl | rfl <;> norm_num
    · have := ((final_std (names := names) hl hi).available (by omega) k).mem_iff (a := t)
      rw [this]
      simpa using ht
    · obtain ⟨r, h1, h2⟩ := final_impact (names := names) hl k ht hb (hi k)
      exact ⟨r, h1, h2.symm⟩

/-! ### The product of the impacts -/

/-- The impact of an entry in a bin. -/
noncomputable def entryUD (e : String × List UpDown) (b : Nat) : UpDown :=
  match e.2 with
  | [i] => i
  | l => l.getD b (0, 0)

theorem entryUD_full {e : String × List UpDown} {nb b : Nat} (hl : e.2.length = nb) (hb : b < nb) :
    entryUD e b = e.2.getD b (0, 0) := by
  unfold entryUD
  split
  · rename_i i hi
    have : b = 0 := by rw [hi] at hl; simp at hl; omega
    rw [hi, this]; rfl
  · rfl

theorem get?_of_mem {V : Type} {l : List (String × V)} (hn : (l.map (·.1)).Nodup) {k : String} {v : V} (h : (k, v) ∈ l) :
    Dict.get? l k = some v := (Dict.get?_eq_some_iff l hn k v).2 h

theorem conv_ud {first : List Par} {s : PSample}
    (hn : ((s.modifiers.flatMap (entries first s.data)).map (·.1)).Nodup) {e : String × List UpDown}
    (he : e ∈ s.modifiers.flatMap (entries first s.data)) (b : Nat) : (conv first s).ud e.1 b = entryUD e b := by
  have hg : (conv first s).impacts.get? e.1 = some (collapse e.2) := by
    refine get?_of_mem ?_ ?_
    · simpa [conv, Function.comp_def] using hn
    · exact List.mem_map.2 ⟨e, he, rfl⟩
  unfold CSample.ud entryUD
  rw [hg]
  obtain ⟨k, l⟩ := e
  rcases l with _ | ⟨a, _ | ⟨c, l⟩⟩ <;> rfl

theorem conv_ud_none {first : List Par} {s : PSample} {k : String}
    (hk : k ∉ (s.modifiers.flatMap (entries first s.data)).map (·.1)) (b : Nat) : (conv first s).ud k b = (0, 0) := by
  have hg : (conv first s).impacts.get? k = none := by
    rw [Dict.get?_eq_none_iff]
    simpa [conv, Dict.keys, Function.comp_def] using hk
  unfold CSample.ud
  rw [hg]

theorem conv_ok {first : List Par} {pars : Ctx} {poi : String} {nb : Nat} {s : PSample} (h : GoodSample first pars poi nb s) :
    ∀ k i, (conv first s).impacts.get? k = some i → PImpOk nb i := by
  intro k i hi
  have hm := Dict.mem_of_get?_eq hi
  obtain ⟨e, he, hei⟩ := List.mem_map.1 hm
  obtain ⟨rfl, rfl⟩ := Prod.mk.inj hei
  obtain ⟨mod, hmod, he⟩ := List.mem_flatMap.1 he
  have hl := (entries_signs (h.good mod hmod) e he).1
  rw [h.size] at hl
  obtain ⟨k, l⟩ := e
  rcases l with _ | ⟨a, _ | ⟨c, l⟩⟩
  · rcases hl with hl | hl
    · cases hl
    · exact hl
  · trivial
  · rcases hl with hl | hl
    · simp at hl
    · exact hl

theorem setting_add (t a b c d : ℝ) : c + setting t a b d = setting t (c + a) (c + b) (c + d) := by
  unfold setting; split_ifs <;> rfl

theorem setting_div (t a b c d : ℝ) : setting t a b d / c = setting t (a / c) (b / c) (d / c) := by
  unfold setting; split_ifs <;> rfl

theorem setting_linear {t : ℝ} (ht : t = 0 ∨ t = 1 ∨ t = -1) (r : ℝ) : setting t r (-r) 0 = r * t := by
  have h1 : ¬ (0 : ℝ) = 1 := by norm_num
  have h2 : ¬ (-1 : ℝ) = 1 := by norm_num
  rcases ht with rfl | rfl | rfl <;> simp [setting, h2]

theorem prod_indicator {n b : Nat} (hb : b < n) (f : Nat → ℝ) (hf : ∀ i < n, i ≠ b → f i = 1) :
    ((List.range n).map f).prod = f b := by
  have h1 : ((List.range n).map f).prod = ∏ i ∈ Finset.range n, f i := by
    rw [Finset.prod_range, ← List.prod_ofFn]
    congr 1
    apply List.ext_getElem <;> simp
  rw [h1]
  exact Finset.prod_eq_single b (fun i hi hne => hf i (Finset.mem_range.1 hi) hne)
    (fun h => absurd (Finset.mem_range.2 hb) h)

/-- The product of the impacts of a modifier. -/
theorem entries_prod {first : List Par} {pars : Ctx} {data : List ℝ} {mod : Modifier} (hg : GoodModifier first pars data mod)
    {α : String → ℝ} (hα : ∀ k, α k = 0 ∨ α k = 1 ∨ α k = -1) {b : Nat} (hb : b < data.length)
    (hr : 1 / 100 ≤ mod.ratio pars α b (data.getD b 0) ∧ mod.ratio pars α b (data.getD b 0) ≤ 100) :
    ((entries first data mod).map fun e =>
      clamp (1 + setting (α e.1) (entryUD e b).1 (entryUD e b).2 0)).prod = mod.ratio pars α b (data.getD b 0) := by
  have hcl := clamp_id hr
  cases mod with
  | normfactor n => simp [entries, Modifier.ratio, Modifier.shift, Modifier.factor]
  | lumi n =>
    obtain ⟨p, p0, σ, hp, hσ, hc, h0, hs⟩ := hg
    have e1 : (Modifier.lumi n).ratio pars α b (data.getD b 0) = 1 + σ * α n := by
      simp [Modifier.ratio, Modifier.shift, Modifier.factor, hp, hσ, hc]
    rw [e1] at hcl ⊢
    simp only [entries, h0, hs, Option.getD_some, List.map_cons, List.map_nil, List.prod_cons, List.prod_nil, mul_one,
      entryUD, setting_linear (hα n)]
    exact hcl
  | normsys n hi lo =>
    have e1 : (Modifier.normsys n hi lo).ratio pars α b (data.getD b 0) = setting (α n) hi lo 1 := by
      simp [Modifier.ratio, Modifier.shift, Modifier.factor]
    rw [e1] at hcl ⊢
    simp only [entries, List.map_cons, List.map_nil, List.prod_cons, List.prod_nil, mul_one, entryUD, setting_add]
    simpa using hcl
  | histosys n hi lo =>
    obtain ⟨h1, h2, h3⟩ := hg
    have hy := (h3 b hb).1
    have e1 : (Modifier.histosys n hi lo).ratio pars α b (data.getD b 0) =
        1 + setting (α n) (hi.getD b 0 / data.getD b 0 - 1) (lo.getD b 0 / data.getD b 0 - 1) 0 := by
      simp only [Modifier.ratio, Modifier.shift, Modifier.factor, mul_one, setting_div, sub_div, div_self hy, zero_div]
    rw [e1] at hcl ⊢
    simp only [entries, List.map_cons, List.map_nil, List.prod_cons, List.prod_nil, mul_one]
    rw [entryUD_full (nb := data.length) (by simp [h1, h2]) hb]
    rw [List.getD_eq_getElem _ _ (by simp [h1, h2, hb])]
    simp only [List.getElem_map, List.getElem_zip]
    rw [← List.getD_eq_getElem data 0 hb, ← List.getD_eq_getElem hi 0 (by omega), ← List.getD_eq_getElem lo 0 (by omega)]
    exact hcl
  | shapesys n u =>
    obtain ⟨h1, h2⟩ := hg
    have e1 : (Modifier.shapesys n u).ratio pars α b (data.getD b 0) =
        1 + u.getD b 0 / data.getD b 0 * α (binName n b) := by
      simp [Modifier.ratio, Modifier.shift, Modifier.factor]
    rw [e1] at hcl ⊢
    have e2 : (entries first data (.shapesys n u)) = (List.range data.length).map fun i =>
        (binName n i, binImpact data.length i (u.getD i 0 / data.getD i 0)) := by
      simp only [entries]
      apply List.ext_getElem
      · simp [h1]
      · intro i hi hi'
        simp only [List.length_map, List.length_range] at hi'
        simp only [List.getElem_map, List.getElem_zipIdx, List.getElem_zip, List.getElem_range, Nat.zero_add]
        rw [List.getD_eq_getElem data 0 hi', List.getD_eq_getElem u 0 (by omega)]
    have e3 : ∀ i, i < data.length → entryUD (binName n i, binImpact data.length i (u.getD i 0 / data.getD i 0)) b =
        if i = b then (u.getD i 0 / data.getD i 0, -(u.getD i 0 / data.getD i 0)) else (0, 0) := by
      intro i hi
      rw [entryUD_full (nb := data.length) (by simp [binImpact]) hb]
      rw [List.getD_eq_getElem _ _ (by simpa [binImpact] using hb)]
      simp [binImpact]
    rw [e2, List.map_map]
    rw [prod_indicator hb]
    · simp only [Function.comp]
      rw [e3 b hb, if_pos rfl]
      dsimp only
      rw [setting_linear (hα _)]
      exact hcl
    · intro i hi hne
      simp only [Function.comp]
      rw [e3 i hi, if_neg hne]
      have hz : ∀ t, setting t 0 0 0 = 0 := by intro t; unfold setting; split_ifs <;> rfl
      dsimp only
      rw [hz, add_zero, clamp_one]
  | staterror n u =>
    obtain ⟨h1, h2⟩ := hg
    have e1 : (Modifier.staterror n u).ratio pars α b (data.getD b 0) =
        1 + u.getD b 0 / data.getD b 0 * α (binName n b) := by
      rw [(h2 b hb).2]
      simp [Modifier.ratio, Modifier.shift, Modifier.factor]
    rw [e1] at hcl ⊢
    have e2 : (entries first data (.staterror n u)) = (List.range data.length).map fun i =>
        (binName n i, binImpact data.length i (u.getD i 0 / data.getD i 0)) := by
      simp only [entries]
      apply List.ext_getElem
      · simp [h1]
      · intro i hi hi'
        simp only [List.length_map, List.length_range] at hi'
        simp only [List.getElem_map, List.getElem_zipIdx, List.getElem_zip, List.getElem_range, Nat.zero_add]
        rw [List.getD_eq_getElem data 0 hi', List.getD_eq_getElem u 0 (by omega)]
    have e3 : ∀ i, i < data.length → entryUD (binName n i, binImpact data.length i (u.getD i 0 / data.getD i 0)) b =
        if i = b then (u.getD i 0 / data.getD i 0, -(u.getD i 0 / data.getD i 0)) else (0, 0) := by
      intro i hi
      rw [entryUD_full (nb := data.length) (by simp [binImpact]) hb]
      rw [List.getD_eq_getElem _ _ (by simpa [binImpact] using hb)]
      simp [binImpact]
    rw [e2, List.map_map]
    rw [prod_indicator hb]
    · simp only [Function.comp]
      rw [e3 b hb, if_pos rfl]
      dsimp only
      rw [setting_linear (hα _)]
      exact hcl
    · intro i hi hne
      simp only [Function.comp]
      rw [e3 i hi, if_neg hne]
      have hz : ∀ t, setting t 0 0 0 = 0 := by intro t; unfold setting; split_ifs <;> rfl
      dsimp only
      rw [hz, add_zero, clamp_one]
  | other n => exact hg.elim

theorem prod_flatMap {α β : Type} (l : List α) (f : α → List β) (g : β → ℝ) :
    ((l.flatMap f).map g).prod = (l.map fun a => ((f a).map g).prod).prod := by
  induction l with
  | nil => rfl
  | cons a l ih => simp [ih]

/-- Reducing the product over all NPs to those of the sample. -/
theorem prod_names {keys names : List String} (hk : keys.Nodup) (hn : names.Nodup) (hs : ∀ k ∈ names, k ∈ keys)
    (F : String → ℝ) (hF : ∀ k, k ∉ names → F k = 1) : (keys.map F).prod = (names.map F).prod := by
  rw [← List.prod_toFinset F hk, ← List.prod_toFinset F hn]
  symm
  refine Finset.prod_subset ?_ ?_
  · intro k h
    simp only [List.mem_toFinset] at h ⊢
    exact hs k h
  · intro k _ h
    exact hF k (by simpa using h)

theorem sample_prod {first : List Par} {pars : Ctx} {poi : String} {nb : Nat} {s : PSample} (h : GoodSample first pars poi nb s)
    {keys : List String} (hk : keys.Nodup) (hs : ∀ k ∈ s.modifiers.flatMap (Modifier.params nb), k ∈ keys)
    {α : String → ℝ} (hα : ∀ k, α k = 0 ∨ α k = 1 ∨ α k = -1) {b : Nat} (hb : b < nb)
    (hr : ∀ mod ∈ s.modifiers,
      1 / 100 ≤ mod.ratio pars α b (s.data.getD b 0) ∧ mod.ratio pars α b (s.data.getD b 0) ≤ 100) :
    (keys.map fun k => clamp (1 + setting (α k) ((conv first s).ud k b).1 ((conv first s).ud k b).2 0)).prod =
      (s.modifiers.map fun mod => mod.ratio pars α b (s.data.getD b 0)).prod := by
  have hnames := flat_names s.modifiers h.good
  have hnd : ((s.modifiers.flatMap (entries first s.data)).map (·.1)).Nodup := by
    rw [hnames, h.size]; exact h.params
  have hz : ∀ t, setting t 0 0 0 = 0 := by intro t; unfold setting; split_ifs <;> rfl
  rw [prod_names hk hnd (by rw [hnames, h.size]; exact hs)]
  · rw [List.map_map]
    have : (s.modifiers.flatMap (entries first s.data)).map ((fun k => clamp (1 + setting (α k) ((conv first s).ud k b).1
        ((conv first s).ud k b).2 0)) ∘ (·.1)) = (s.modifiers.flatMap (entries first s.data)).map fun e =>
          clamp (1 + setting (α e.1) (entryUD e b).1 (entryUD e b).2 0) := by
      refine List.map_congr_left fun e he => ?_
      simp only [Function.comp, conv_ud hnd he]
    rw [this, prod_flatMap]
    congr 1
    refine List.map_congr_left fun mod hm => ?_
    exact entries_prod (h.good mod hm) hα (by rw [h.size]; exact hb) (hr mod hm)
  · intro k hk
    rw [conv_ud_none hk, hz, add_zero, clamp_one]

/-! ### The rate in terms of the ratios -/

theorem factor_norm (pars : Ctx) (μ : ℝ) (α : String → ℝ) (b : Nat) (y : ℝ) (l : List Modifier) :
    (l.map (Modifier.factor pars μ α b y)).prod = μ ^ (normfactors ⟨"", [], l⟩).length *
      (l.map (Modifier.factor pars 1 α b y)).prod := by
  induction l with
  | nil => simp [normfactors]
  | cons a l ih =>
    rw [List.map_cons, List.prod_cons, ih, List.map_cons, List.prod_cons]
    cases a <;> simp [normfactors, Modifier.factor, pow_succ] <;> ring

theorem rate_norm {pars : Ctx} {μ : ℝ} {α : String → ℝ} {b : Nat} {y : ℝ} {s : PSample} {poi : String}
    (h : normfactors s = [] ∨ normfactors s = [poi]) : (s.modifiers.map (Modifier.factor pars μ α b y)).prod =
      (if normfactors s = [] then 1 else μ) * (s.modifiers.map (Modifier.factor pars 1 α b y)).prod := by
  rw [factor_norm]
  have : normfactors ⟨"", [], s.modifiers⟩ = normfactors s := rfl
  rw [this]
  rcases h with e | e <;> simp [e]

theorem prod_shift {y : ℝ} (l : List ℝ) (hy : y = 0 → ∀ a ∈ l, a = 0) (h : l.Pairwise fun a b => a = 0 ∨ b = 0) :
    y + l.sum = y * (l.map fun a => 1 + a / y).prod := by
  by_cases h0 : y = 0
  · have : l.sum = 0 := List.sum_eq_zero (hy h0)
    simp [h0, this]
  · clear hy
    induction l with
    | nil => simp
    | cons a l ih =>
      rw [List.pairwise_cons] at h
      have ih' := ih h.2
      rw [List.sum_cons, List.map_cons, List.prod_cons]
      by_cases ha : a = 0
      · subst ha; simpa using ih'
      · have hl : l.sum = 0 := by
          refine List.sum_eq_zero fun x hx => ?_
          exact (h.1 x hx).resolve_left ha
        rw [hl, add_zero] at ih'
        have : (l.map fun a => 1 + a / y).prod = 1 := mul_left_cancel₀ h0 (by rw [← ih', mul_one])
        rw [hl, this]
        field_simp
        simp

theorem rate_prod {first : List Par} {pars : Ctx} {poi : String} {nb : Nat} {s : PSample} (h : GoodSample first pars poi nb s)
    {μ : ℝ} {α : String → ℝ} {b : Nat} (hb : b < nb)
    (hp : (s.modifiers.map (Modifier.shift α b (s.data.getD b 0))).Pairwise fun a b => a = 0 ∨ b = 0) :
    s.rate pars μ α b = (if normfactors s = [] then 1 else μ) * s.data.getD b 0 *
      (s.modifiers.map fun mod => mod.ratio pars α b (s.data.getD b 0)).prod := by
  unfold PSample.rate
  rw [rate_norm h.norm, prod_shift _ _ hp]
  · have : ∀ l : List Modifier, (l.map fun mod => mod.ratio pars α b (s.data.getD b 0)).prod =
        ((l.map (Modifier.shift α b (s.data.getD b 0))).map fun a => 1 + a / s.data.getD b 0).prod *
          (l.map (Modifier.factor pars 1 α b (s.data.getD b 0))).prod := by
      intro l
      induction l with
      | nil => simp
      | cons a l ih =>
        rw [List.map_cons, List.prod_cons, ih, List.map_cons, List.map_cons, List.prod_cons, List.map_cons, List.prod_cons,
          Modifier.ratio]
        ring
    rw [this]
    ring
  · intro hy a ha
    obtain ⟨mod, hm, rfl⟩ := List.mem_map.1 ha
    have hg := h.good mod hm
    cases mod with
    | histosys n hi lo =>
      exact absurd hy (hg.2.2 b (by rw [h.size]; exact hb)).1
    | _ => rfl

end Pyhf
end Verif
