import Verif.Spec.ConvertWs
import Verif.Lemmas.ConvertWs
import Verif.Props.Yields
/-!
# C86: the yields and impacts written by `convert_ws.py`
-/
namespace Verif.Props
open Verif Conv

theorem zero_only (c : WSChannel) (v : Vals) : zeroNorms c.samples v = onlyNorm c none v := by
  funext q
  rw [zeroNorms_eq]
  unfold onlyNorm
  by_cases h : ∃ s ∈ c.samples, s.normpar = some q
  · rw [if_pos h, if_pos ⟨h, by simp⟩]
  · rw [if_neg h, if_neg fun h2 => h h2.1]

theorem set_only (c : WSChannel) (v : Vals) (p : String) : setVal p (v p) (zeroNorms c.samples v) = onlyNorm c (some p) v := by
  funext q
  by_cases hq : q = p
  · subst hq; simp [setVal, onlyNorm]
  · have : zeroNorms c.samples v q = onlyNorm c (some p) v q := by
      rw [zeroNorms_eq]
      unfold onlyNorm
      by_cases h : ∃ s ∈ c.samples, s.normpar = some q
      · rw [if_pos h, if_pos ⟨h, fun e => hq (Option.some.inj e).symm⟩]
      · rw [if_neg h, if_neg fun h2 => h h2.1]
    simpa [setVal, hq] using this

theorem yields_eq (c : WSChannel) (i : ℕ) (v : Vals) : (fillYields (c.expected i) c.samples c.dflt v).1 = List.ofFn fun s => yieldOf c i s v := by
  apply List.ext_getElem
  · rw [fillYields_length, List.length_ofFn]
  · intro k h1 h2
    have hk : k < c.samples.length := by rw [fillYields_length] at h1; exact h1
    have := fillYields_get (c.expected i) c.samples c.dflt v ⟨k, hk⟩
    simp only [Fin.getElem_fin] at this
    rw [this, List.getElem_ofFn]
    unfold yieldOf restOf
    rcases hn : c.samples[k].normpar with _ | p
    · simp [hn, zero_only]
    · simp [hn, zero_only, ← set_only]

theorem impactOf_ok (eps yv yn y : ℝ) : impactOf eps yv yn = .ok y ↔ ImpactIs eps yv yn y := by
  unfold impactOf ImpactIs
  by_cases h : yn = 0
  · simp [h, eq_comm]
  · by_cases he : eps = 0
    · simp [h, he]
    · rw [if_neg h, if_neg he, bind_eq_ok]
      constructor
      · rintro ⟨r, hr, hy⟩
        refine .inr ⟨h, he, ?_⟩
        rw [hr]
        have := Except.ok.inj hy
        rw [← this]; congr 1; ring
      · rintro (⟨h0, _⟩ | ⟨_, _, hr⟩)
        · exact absurd h0 h
        · exact ⟨_, hr, by simp⟩

theorem moved_set (v : Vals) (par : NuisPar) (hn : par.nominal = v par.name) (d : ℝ) : setVal par.name (par.nominal + d) v = moved v par d := by
  unfold moved; rw [← hn]; rfl

theorem forall₂_ofFn {n : ℕ} {α β : Type} (f : Fin n → α) (R : α → β → Prop) (d : β) (l : List β) :
    List.Forall₂ R (List.ofFn f) l ↔ l.length = n ∧ ∀ s : Fin n, R (f s) (l.getD s d) := by
  rw [List.forall₂_iff_get]
  constructor
  · rintro ⟨h, hr⟩
    have hl : l.length = n := by rw [← h, List.length_ofFn]
    refine ⟨hl, fun s => ?_⟩
    have := hr s (by simp) (by rw [hl]; exact s.2)
    simpa [List.getD_eq_getElem?_getD, hl] using this
  · rintro ⟨hl, hr⟩
    refine ⟨by rw [List.length_ofFn, hl], fun k h1 h2 => ?_⟩
    have := hr ⟨k, by rw [List.length_ofFn] at h1; exact h1⟩
    simpa [List.getD_eq_getElem?_getD, h2] using this

theorem varStep_ok (c : WSChannel) (i : ℕ) (eps : ℝ) (par : NuisPar) (x : ℝ) (v w : Vals) (hw : Off c.samples v w)
    (hn : par.nominal = v par.name) (imps : List ℝ) (w' : Vals) :
    varStep (c.expected i) c.samples c.dflt (normValues c.samples v) eps par (List.ofFn fun s => yieldOf c i s v) x w = .ok (imps, w') ↔
      (imps.length = c.samples.length ∧ ∀ s : Fin c.samples.length,
        ImpactIs eps (yieldOf c i s (moved v par (x * (par.error * eps)))) (yieldOf c i s v) (imps.getD s 0)) ∧
      w' = setVal par.name (v par.name) (zeroNorms c.samples (moved v par (x * (par.error * eps)))) := by
  unfold varStep
  simp only [setNorms_off hw, moved_set v par hn, yields_eq, fillYields_state]
  have hz : (List.ofFn fun s => yieldOf c i s (moved v par (x * (par.error * eps)))).zip (List.ofFn fun s => yieldOf c i s v) =
      List.ofFn fun s : Fin c.samples.length => (yieldOf c i s (moved v par (x * (par.error * eps))), yieldOf c i s v) := by
    apply List.ext_getElem <;> simp
  rw [hz, bind_eq_ok]
  have hm : ∀ r, (List.ofFn fun s : Fin c.samples.length => (yieldOf c i s (moved v par (x * (par.error * eps))), yieldOf c i s v)).mapM
      (fun e => impactOf eps e.1 e.2) = .ok r ↔ r.length = c.samples.length ∧ ∀ s : Fin c.samples.length,
        ImpactIs eps (yieldOf c i s (moved v par (x * (par.error * eps)))) (yieldOf c i s v) (r.getD s 0) := by
    intro r
    rw [mapM_ok_iff, forall₂_ofFn _ _ 0]
    simp only [impactOf_ok]
  constructor
  · rintro ⟨r, hr, he⟩
    rw [hm] at hr
    have := Except.ok.inj he
    cases this
    exact ⟨hr, by rw [hn]⟩
  · rintro ⟨h1, rfl⟩
    exact ⟨imps, (hm _).2 h1, by rw [hn]; rfl⟩

theorem parStep_ok (c : WSChannel) (i : ℕ) (eps : ℝ) (par : NuisPar) (v : Vals) (hn : par.nominal = v par.name) (vars : List ℝ) :
    ∀ (w : Vals), Off c.samples v w → ∀ d,
    (∃ w', parStep (c.expected i) c.samples c.dflt (normValues c.samples v) eps par (List.ofFn fun s => yieldOf c i s v) vars w = .ok (d, w')) ↔
      List.Forall₂ (fun x e => e.1 = x ∧ e.2.length = c.samples.length ∧ ∀ s : Fin c.samples.length,
        ImpactIs eps (yieldOf c i s (moved v par (x * (par.error * eps)))) (yieldOf c i s v) (e.2.getD s 0)) vars d := by
  induction vars with
  | nil =>
    intro w hw d
    simp only [parStep, List.forall₂_nil_left_iff]
    constructor
    · rintro ⟨w', h⟩; cases h; rfl
    · rintro rfl; exact ⟨w, rfl⟩
  | cons x xs ih =>
    intro w hw d
    rw [List.forall₂_cons_left_iff]
    have hoff : Off c.samples v (setVal par.name (v par.name) (zeroNorms c.samples (moved v par (x * (par.error * eps))))) := off_par _ _ _ _
    simp only [parStep]
    constructor
    · rintro ⟨w', h⟩
      obtain ⟨⟨imps, w1⟩, h1, h⟩ := bind_eq_ok.1 h
      obtain ⟨⟨rest, w2⟩, h2, h⟩ := bind_eq_ok.1 h
      cases h
      obtain ⟨hi, rfl⟩ := (varStep_ok c i eps par x v w hw hn _ _).1 h1
      exact ⟨(x, imps), rest, ⟨rfl, hi⟩, (ih _ hoff _).1 ⟨_, h2⟩, rfl⟩
    · rintro ⟨⟨x', imps⟩, rest, ⟨rfl, h1⟩, h2, rfl⟩
      obtain ⟨w2, h2⟩ := (ih _ hoff _).2 h2
      exact ⟨w2, by rw [(varStep_ok c i eps par x' v w hw hn imps _).2 ⟨h1, rfl⟩]; simp only [bind_ok]; rw [h2]; rfl⟩

theorem parStep_off (c : WSChannel) (i : ℕ) (eps : ℝ) (par : NuisPar) (v : Vals) (hn : par.nominal = v par.name) (vars : List ℝ) :
    ∀ (w : Vals), Off c.samples v w → ∀ d w',
    parStep (c.expected i) c.samples c.dflt (normValues c.samples v) eps par (List.ofFn fun s => yieldOf c i s v) vars w = .ok (d, w') →
    Off c.samples v w' := by
  induction vars with
  | nil => intro w hw d w' h; cases h; exact hw
  | cons x xs ih =>
    intro w hw d w' h
    simp only [parStep] at h
    obtain ⟨⟨imps, w1⟩, h1, h⟩ := bind_eq_ok.1 h
    obtain ⟨⟨rest, w2⟩, h2, h⟩ := bind_eq_ok.1 h
    cases h
    obtain ⟨hi, rfl⟩ := (varStep_ok c i eps par x v w hw hn _ _).1 h1
    exact ih _ (off_par _ _ _ _) _ _ h2

theorem parsStep_ok (c : WSChannel) (i : ℕ) (eps : ℝ) (v : Vals) (vars : List ℝ) (pars : List NuisPar) (hn : ∀ par ∈ pars, par.nominal = v par.name) :
    ∀ (w : Vals), Off c.samples v w → ∀ ds,
    (∃ w', parsStep (c.expected i) c.samples c.dflt (normValues c.samples v) eps (List.ofFn fun s => yieldOf c i s v) vars pars w = .ok (ds, w') ∧
        Off c.samples v w') ↔
      List.Forall₂ (fun par d => List.Forall₂ (fun x e => e.1 = x ∧ e.2.length = c.samples.length ∧ ∀ s : Fin c.samples.length,
        ImpactIs eps (yieldOf c i s (moved v par (x * (par.error * eps)))) (yieldOf c i s v) (e.2.getD s 0)) vars d) pars ds := by
  induction pars with
  | nil =>
    intro w hw d
    simp only [parsStep, List.forall₂_nil_left_iff]
    constructor
    · rintro ⟨w', h, _⟩; cases h; rfl
    · rintro rfl; exact ⟨w, rfl, hw⟩
  | cons par ps ih =>
    intro w hw ds
    rw [List.forall₂_cons_left_iff]
    have hp := hn par (List.mem_cons_self ..)
    have ih := ih fun q hq => hn q (List.mem_cons_of_mem _ hq)
    simp only [parsStep]
    constructor
    · rintro ⟨w', h, ho⟩
      obtain ⟨⟨d, w1⟩, h1, h⟩ := bind_eq_ok.1 h
      obtain ⟨⟨rest, w2⟩, h2, h⟩ := bind_eq_ok.1 h
      cases h
      have hoff := parStep_off c i eps par v hp vars w hw _ _ h1
      exact ⟨d, rest, (parStep_ok c i eps par v hp vars w hw _).1 ⟨_, h1⟩, (ih _ hoff _).1 ⟨_, h2, ho⟩, rfl⟩
    · rintro ⟨d, rest, h1, h2, rfl⟩
      obtain ⟨w1, h1⟩ := (parStep_ok c i eps par v hp vars w hw _).2 h1
      have hoff := parStep_off c i eps par v hp vars w hw _ _ h1
      obtain ⟨w2, h2, ho⟩ := (ih _ hoff _).2 h2
      exact ⟨w2, by rw [h1]; simp only [bind_ok]; rw [h2]; rfl, ho⟩

theorem parsStep_off (c : WSChannel) (i : ℕ) (eps : ℝ) (v : Vals) (vars : List ℝ) (pars : List NuisPar) (hn : ∀ par ∈ pars, par.nominal = v par.name) :
    ∀ (w : Vals), Off c.samples v w → ∀ d w',
    parsStep (c.expected i) c.samples c.dflt (normValues c.samples v) eps (List.ofFn fun s => yieldOf c i s v) vars pars w = .ok (d, w') →
    Off c.samples v w' := by
  induction pars with
  | nil => intro w hw d w' h; cases h; exact hw
  | cons par xs ih =>
    intro w hw d w' h
    simp only [parsStep] at h
    obtain ⟨⟨imps, w1⟩, h1, h⟩ := bind_eq_ok.1 h
    obtain ⟨⟨rest, w2⟩, h2, h⟩ := bind_eq_ok.1 h
    cases h
    exact ih (fun q hq => hn q (List.mem_cons_of_mem _ hq)) _ (parStep_off c i eps par v (hn par (List.mem_cons_self ..)) vars w hw _ _ h1) _ _ h2

theorem binsStep_ok (trim : ℝ → ℝ) (c : WSChannel) (eps : ℝ) (v : Vals) (vars : List ℝ) (pars : List NuisPar)
    (hn : ∀ par ∈ pars, par.nominal = v par.name) (is : List ℕ) : ∀ (w : Vals), Off c.samples v w → ∀ bs,
    (∃ w', binsStep trim c (normValues c.samples v) eps vars pars is w = .ok (bs, w')) ↔ List.Forall₂ (BinIs trim c eps vars pars v) is bs := by
  induction is with
  | nil =>
    intro w hw d
    simp only [binsStep, List.forall₂_nil_left_iff]
    constructor
    · rintro ⟨w', h⟩; cases h; rfl
    · rintro rfl; exact ⟨w, rfl⟩
  | cons i is ih =>
    intro w hw bs
    rw [List.forall₂_cons_left_iff]
    simp only [binsStep, setNorms_off hw, yields_eq, fillYields_state]
    have hz := off_zero c.samples v
    constructor
    · rintro ⟨w', h⟩
      obtain ⟨⟨ds, w1⟩, h1, h⟩ := bind_eq_ok.1 h
      obtain ⟨⟨rest, w2⟩, h2, h⟩ := bind_eq_ok.1 h
      cases h
      have hoff := parsStep_off c i eps v vars pars hn _ hz _ _ h1
      exact ⟨_, rest, ⟨by simp [List.map_ofFn, Function.comp_def], (parsStep_ok c i eps v vars pars hn _ hz _).1 ⟨_, h1, hoff⟩⟩, (ih _ hoff _).1 ⟨_, h2⟩, rfl⟩
    · rintro ⟨⟨nom, ds⟩, rest, ⟨h0, h1⟩, h2, rfl⟩
      obtain ⟨w1, hp, hoff⟩ := (parsStep_ok c i eps v vars pars hn _ hz _).2 h1
      obtain ⟨w2, hb⟩ := (ih _ hoff _).2 h2
      dsimp only at h0 hp
      subst h0
      refine ⟨w2, ?_⟩
      rw [hp]; simp only [bind_ok]; rw [hb]
      simp [List.map_ofFn, Function.comp_def]

theorem binsStep_off (trim : ℝ → ℝ) (c : WSChannel) (eps : ℝ) (v : Vals) (vars : List ℝ) (pars : List NuisPar)
    (hn : ∀ par ∈ pars, par.nominal = v par.name) (is : List ℕ) : ∀ (w : Vals), Off c.samples v w → ∀ bs w',
    binsStep trim c (normValues c.samples v) eps vars pars is w = .ok (bs, w') → Off c.samples v w' := by
  induction is with
  | nil => intro w hw bs w' h; cases h; exact hw
  | cons i is ih =>
    intro w hw bs w' h
    simp only [binsStep, setNorms_off hw, yields_eq, fillYields_state] at h
    obtain ⟨⟨ds, w1⟩, h1, h⟩ := bind_eq_ok.1 h
    obtain ⟨⟨rest, w2⟩, h2, h⟩ := bind_eq_ok.1 h
    cases h
    exact ih _ (parsStep_off c i eps v vars pars hn _ (off_zero _ _) _ _ h1) _ _ h2

/-- C86.  Whatever the expected yields of the workspace are as functions of its variables, `convert_ws.py` leaves all the variables of the
workspace as they were, and what it records for each bin, sample, nuisance parameter and variation is exactly: the nominal yield attributed
to the sample at the initial values of the variables, rounded; and the impact of moving this nuisance parameter alone, computed with the
unrounded yields.  It fails exactly when one of the impacts cannot be computed. -/
theorem c86_entries (trim : ℝ → ℝ) (c : WSChannel) (eps : ℝ) (vars : List ℝ) (pars : List NuisPar) (v : Vals)
    (hn : ∀ par ∈ pars, par.nominal = v par.name) (bins : List BinOut) (w : Vals) :
    fillChannel trim c eps vars pars v = .ok (bins, w) ↔
      w = v ∧ List.Forall₂ (BinIs trim c eps vars pars v) (List.range c.nbins) bins := by
  unfold fillChannel
  have hz := off_zero c.samples v
  constructor
  · intro h
    obtain ⟨⟨bs, w1⟩, h1, h⟩ := bind_eq_ok.1 h
    cases h
    exact ⟨setNorms_off (binsStep_off trim c eps v vars pars hn _ _ hz _ _ h1), (binsStep_ok trim c eps v vars pars hn _ _ hz _).1 ⟨_, h1⟩⟩
  · rintro ⟨rfl, h⟩
    obtain ⟨w1, h1⟩ := (binsStep_ok trim c eps w vars pars hn _ _ hz _).2 h
    dsimp only
    rw [h1]
    simp only [bind_ok, pure_ok]
    rw [setNorms_off (binsStep_off trim c eps w vars pars hn _ _ hz _ _ h1)]

theorem forall₂_get {α β : Type} {R : α → β → Prop} {l : List α} {l' : List β} (hR : List.Forall₂ R l l') : ∀ (n : ℕ) (a : α), l[n]? = some a →
    ∃ b, l'[n]? = some b ∧ R a b := by
  induction hR with
  | nil => intro n a ha; simp at ha
  | cons hab _ ih =>
    intro n a ha
    rcases n with _ | n
    · rw [List.getElem?_cons_zero] at ha ⊢; cases ha; exact ⟨_, rfl, hab⟩
    · rw [List.getElem?_cons_succ] at ha ⊢; exact ih n a ha

theorem pyPow_one (r : ℝ) : pyPow r 1 = .ok r := by
  unfold pyPow
  by_cases h : 0 < r
  · rw [if_pos h, Real.rpow_one]
  · rw [if_neg h]
    by_cases h0 : r = 0
    · rw [if_pos h0, if_neg (by norm_num), if_neg one_ne_zero, h0]
    · rw [if_neg h0]; simp

theorem impactIs_one (yv yn y : ℝ) : ImpactIs 1 yv yn y ↔ (yn = 0 ∧ y = 0) ∨ (yn ≠ 0 ∧ yn * (1 + y) = yv) := by
  unfold ImpactIs
  rw [div_one, pyPow_one]
  constructor
  · rintro (h | ⟨h, _, he⟩)
    · exact .inl h
    · refine .inr ⟨h, ?_⟩
      rw [← Except.ok.inj he]; field_simp
  · rintro (h | ⟨h, he⟩)
    · exact .inl h
    · refine .inr ⟨h, one_ne_zero, ?_⟩
      rw [← he]; congr 1; field_simp

/-- With the default `--epsilon 1` the conversion of the yields never fails, and the impact recorded for a sample with a nominal yield takes
this yield exactly to the one that the workspace has for the varied parameter; without a nominal yield the impact is 0. -/
theorem c86_default (trim : ℝ → ℝ) (c : WSChannel) (vars : List ℝ) (pars : List NuisPar) (v : Vals)
    (hn : ∀ par ∈ pars, par.nominal = v par.name) :
    (∃ bins, fillChannel trim c 1 vars pars v = .ok (bins, v)) ∧
    ∀ bins w, fillChannel trim c 1 vars pars v = .ok (bins, w) → ∀ i < c.nbins, ∀ (k j : ℕ) (par : NuisPar) (x : ℝ), pars[k]? = some par → vars[j]? = some x →
      ∃ b d e, bins[i]? = some b ∧ b.impacts[k]? = some d ∧ d[j]? = some e ∧ e.1 = x ∧ ∀ s : Fin c.samples.length,
        b.nominal[(s : ℕ)]? = some (trim (yieldOf c i s v)) ∧ ∃ y, e.2[(s : ℕ)]? = some y ∧
          (yieldOf c i s v ≠ 0 → yieldOf c i s v * (1 + y) = yieldOf c i s (moved v par (x * par.error))) ∧
          (yieldOf c i s v = 0 → y = 0) := by
  constructor
  · open Classical in
    let imp : ℕ → NuisPar → ℝ → Fin c.samples.length → ℝ := fun i par x s =>
      if yieldOf c i s v = 0 then 0 else yieldOf c i s (moved v par (x * (par.error * 1))) / yieldOf c i s v - 1
    have himp : ∀ i par x s, ImpactIs 1 (yieldOf c i s (moved v par (x * (par.error * 1)))) (yieldOf c i s v) (imp i par x s) := by
      intro i par x s
      rw [impactIs_one]
      by_cases h : yieldOf c i s v = 0
      · exact .inl ⟨h, if_pos h⟩
      · refine .inr ⟨h, ?_⟩
        simp only [imp, if_neg h]
        field_simp; ring
    refine ⟨(List.range c.nbins).map fun i => ⟨List.ofFn fun s => trim (yieldOf c i s v), pars.map fun par => vars.map fun x => (x, List.ofFn (imp i par x))⟩,
      (c86_entries trim c 1 vars pars v hn _ _).2 ⟨rfl, ?_⟩⟩
    rw [List.forall₂_map_right_iff, List.forall₂_same]
    intro i _
    refine ⟨rfl, ?_⟩
    rw [List.forall₂_map_right_iff, List.forall₂_same]
    intro par _
    rw [List.forall₂_map_right_iff, List.forall₂_same]
    intro x _
    refine ⟨rfl, by simp, fun s => ?_⟩
    have : (List.ofFn (imp i par x)).getD (s : ℕ) 0 = imp i par x s := by simp [List.getD_eq_getElem?_getD]
    rw [this]
    exact himp i par x s
  · intro bins w h i hi k j par x hk hj
    obtain ⟨_, hf⟩ := (c86_entries trim c 1 vars pars v hn _ _).1 h
    obtain ⟨b, hb, hbi⟩ := forall₂_get hf i i (by simp [hi])
    obtain ⟨d, hd, hdi⟩ := forall₂_get hbi.impacts k par hk
    obtain ⟨e, he, hex, hl, hei⟩ := forall₂_get hdi j x hj
    refine ⟨b, d, e, hb, hd, he, hex, fun s => ⟨by rw [hbi.nominal]; simp, e.2.getD s 0, ?_, ?_⟩⟩
    · simp [List.getD_eq_getElem?_getD, hl]
    · have := hei s
      rw [impactIs_one, mul_one] at this
      rcases this with ⟨h0, hy⟩ | ⟨h0, hy⟩
      · exact ⟨fun hne => absurd h0 hne, fun _ => hy⟩
      · exact ⟨fun _ => hy, fun hne => absurd hne h0⟩

/-- With another `--epsilon` the parameter is moved by this fraction of the deviation, and the impact is the one that, compounded, gives
the change of the yield, if the yield keeps its sign.  A yield that vanishes has the impact -1 for a positive epsilon, and stops the
conversion for a negative one, and so does `--epsilon 0`. -/
theorem c86_epsilon (eps yv yn y : ℝ) (h0 : yn ≠ 0) :
    (0 < yv / yn → (ImpactIs eps yv yn y ↔ eps ≠ 0 ∧ 0 < 1 + y ∧ (1 + y) ^ eps = yv / yn)) ∧
    (0 < eps → (ImpactIs eps 0 yn y ↔ y = -1)) ∧ (eps ≤ 0 → ¬ ImpactIs eps 0 yn y) ∧ ¬ ImpactIs 0 yv yn y := by
  refine ⟨fun hr => ?_, fun he => ?_, fun he => ?_, ?_⟩
  · constructor
    · rintro (⟨h, _⟩ | ⟨_, he, hp⟩)
      · exact absurd h h0
      · rw [pyPow, if_pos hr] at hp
        have := Except.ok.inj hp
        rw [← this]
        exact ⟨he, Real.rpow_pos_of_pos hr _, by rw [← Real.rpow_mul hr.le, one_div_mul_cancel he, Real.rpow_one]⟩
    · rintro ⟨he, h1, h2⟩
      refine .inr ⟨h0, he, ?_⟩
      rw [pyPow, if_pos hr, ← h2, ← Real.rpow_mul h1.le, mul_one_div_cancel he, Real.rpow_one]
  · unfold ImpactIs
    have hi : 0 < 1 / eps := by positivity
    rw [zero_div, pyPow, if_neg (lt_irrefl _), if_pos rfl, if_neg (not_lt.2 hi.le), if_neg hi.ne']
    constructor
    · rintro (⟨h, _⟩ | ⟨_, _, hp⟩)
      · exact absurd h h0
      · have := Except.ok.inj hp; linarith
    · rintro rfl; exact .inr ⟨h0, he.ne', by norm_num⟩
  · rintro (⟨h, _⟩ | ⟨_, hne, hp⟩)
    · exact h0 h
    · have hi : 1 / eps < 0 := one_div_neg.2 (lt_of_le_of_ne he hne)
      rw [zero_div, pyPow, if_neg (lt_irrefl _), if_pos rfl, if_pos hi] at hp
      cases hp
  · rintro (⟨h, _⟩ | ⟨_, hne, _⟩)
    · exact h0 h
    · exact hne rfl

/-! ## Workspaces in which the yield is a sum over the samples -/

theorem only_off (c : WSChannel) (k : Option String) (v : Vals) (q : String) (hq : ¬ IsNorm c q) : onlyNorm c k v q = v q := by
  rw [onlyNorm, if_neg fun h => hq h.1]

theorem rest_eq {c : WSChannel} {i : ℕ} {U : Vals → ℝ} {A : Fin c.samples.length → Vals → ℝ} (h : Additive c i U A) (v : Vals) : restOf c i v = U v := by
  unfold restOf
  rw [h.sum, h.rest _ v fun q hq => only_off c none v q hq, Finset.sum_eq_zero, add_zero]
  intro s _
  rcases hs : c.samples[s].normpar with _ | p
  · simp
  · have : onlyNorm c none v p = 0 := by rw [onlyNorm, if_pos ⟨⟨_, List.getElem_mem s.2, hs⟩, by simp⟩]
    simp [this]

/-- The yields attributed to the samples, in general: a sample gets the yields of all the samples with its normalisation. -/
theorem c86_shares (c : WSChannel) (i : ℕ) (U : Vals → ℝ) (A : Fin c.samples.length → Vals → ℝ) (h : Additive c i U A) (v : Vals)
    (s : Fin c.samples.length) :
    yieldOf c i s v = c.samples[s].normpar.elim 0 v * (∑ t with c.samples[t].normpar = c.samples[s].normpar, A t v) +
      if (s : ℕ) = c.dflt then U v else 0 := by
  unfold yieldOf
  rw [rest_eq h]
  congr 1
  rcases hs : c.samples[s].normpar with _ | p
  · simp
  · rw [if_neg (by simp), h.sum, h.rest _ v fun q hq => only_off c _ v q hq, add_sub_cancel_left, Finset.mul_sum, Finset.sum_filter]
    refine Finset.sum_congr rfl fun t _ => ?_
    rw [h.unit t _ v fun q hq => only_off c _ v q hq]
    rcases ht : c.samples[t].normpar with _ | q
    · simp
    · by_cases hpq : q = p
      · subst hpq; simp [onlyNorm]
      · have : onlyNorm c (some p) v q = 0 := by
          rw [onlyNorm, if_pos ⟨⟨_, List.getElem_mem t.2, ht⟩, fun e => hpq (Option.some.inj e).symm⟩]
        simp [this, hpq]

/-- No two samples have the same normalisation. -/
def OwnNorms (c : WSChannel) : Prop :=
  ∀ s t : Fin c.samples.length, c.samples[s].normpar = c.samples[t].normpar → c.samples[s].normpar ≠ none → s = t

/-- C86.  If the yield of the workspace is a sum over samples with normalisations of their own, each sample gets its term of the sum, and
the default sample in addition the rest: nothing is lost or counted twice. -/
theorem c86_additive (c : WSChannel) (i : ℕ) (U : Vals → ℝ) (A : Fin c.samples.length → Vals → ℝ) (h : Additive c i U A) (ho : OwnNorms c)
    (v : Vals) :
    (∀ s : Fin c.samples.length, yieldOf c i s v = c.samples[s].normpar.elim 0 v * A s v + if (s : ℕ) = c.dflt then U v else 0) ∧
    (c.dflt < c.samples.length → ∑ s : Fin c.samples.length, yieldOf c i s v = c.expected i v) := by
  have h1 : ∀ s : Fin c.samples.length, yieldOf c i s v = c.samples[s].normpar.elim 0 v * A s v + if (s : ℕ) = c.dflt then U v else 0 := by
    intro s
    rw [c86_shares c i U A h]
    congr 1
    rcases hs : c.samples[s].normpar with _ | p
    · simp
    · have : (Finset.univ.filter fun t : Fin c.samples.length => c.samples[t].normpar = some p) = {s} := by
        ext t
        simp only [Finset.mem_filter, Finset.mem_univ, true_and, Finset.mem_singleton]
        constructor
        · intro ht; exact ho t s (by rw [ht, hs]) (by rw [ht]; simp)
        · rintro rfl; exact hs
      rw [this, Finset.sum_singleton]
  refine ⟨h1, fun hd => ?_⟩
  rw [h.sum, Finset.sum_congr rfl fun s _ => h1 s, Finset.sum_add_distrib, add_comm]
  congr 1
  rw [Finset.sum_eq_single (⟨c.dflt, hd⟩ : Fin c.samples.length)]
  · simp
  · intro s _ hs
    rw [if_neg fun e => hs (Fin.ext e)]
  · intro hh; exact absurd (Finset.mem_univ _) hh

/-- Finding F117: samples which share a normalisation (for example several signal processes scaled by one POI) each get the yield of all of
them, so that the total yield of the converted model is larger than that of the workspace. -/
theorem c86_shared_norm (c : WSChannel) (i : ℕ) (U : Vals → ℝ) (A : Fin c.samples.length → Vals → ℝ) (h : Additive c i U A) (v : Vals)
    (hd : c.dflt < c.samples.length) (hA : ∀ s, 0 ≤ A s v) (hv : ∀ q, 0 ≤ v q)
    (s t : Fin c.samples.length) (hst : s ≠ t) (p : String) (hs : c.samples[s].normpar = some p) (ht : c.samples[t].normpar = some p) (hp : 0 < v p)
    (hAt : 0 < A t v) :
    c.expected i v < ∑ s : Fin c.samples.length, yieldOf c i s v := by
  rw [h.sum, Finset.sum_congr rfl fun s _ => c86_shares c i U A h v s, Finset.sum_add_distrib, add_comm]
  have hU : ∑ s : Fin c.samples.length, (if (s : ℕ) = c.dflt then U v else 0) = U v := by
    rw [Finset.sum_eq_single (⟨c.dflt, hd⟩ : Fin c.samples.length)]
    · simp
    · intro s _ hs
      rw [if_neg fun e => hs (Fin.ext e)]
    · intro hh; exact absurd (Finset.mem_univ _) hh
  rw [hU]
  refine add_lt_add_of_lt_of_le (Finset.sum_lt_sum (fun r _ => ?_) ⟨s, Finset.mem_univ _, ?_⟩) le_rfl
  · refine mul_le_mul_of_nonneg_left ?_ ?_
    · exact Finset.single_le_sum (f := fun t => A t v) (fun t _ => hA t) (by simp)
    · rcases c.samples[r].normpar with _ | q
      · exact le_rfl
      · exact hv q
  · rw [hs]
    refine mul_lt_mul_of_pos_left ?_ hp
    have hsub : ({s, t} : Finset (Fin c.samples.length)) ⊆ Finset.univ.filter fun t => c.samples[t].normpar = some p := by
      intro r hr
      rcases Finset.mem_insert.1 hr with rfl | hr
      · simpa using hs
      · rw [Finset.mem_singleton] at hr; subst hr; simpa using ht
    calc A s v < A s v + A t v := by linarith
      _ = ∑ r ∈ ({s, t} : Finset (Fin c.samples.length)), A r v := by rw [Finset.sum_pair hst]
      _ ≤ _ := Finset.sum_le_sum_of_subset_of_nonneg hsub fun r _ _ => hA r

/-- C86.  The converted model gives back the workspace: for an additive workspace with own normalisations, different from 0, and in which the
default sample has none, at any values of the normalisations and with one other nuisance parameter moved by one of the variations, the sum
over the samples of (normalisation over its nominal value) × (nominal yield) × (1 + impact) is the expected yield of the workspace.  (Without
rounding, and for samples which are not empty at the nominal values unless they stay so.) -/
theorem c86_reproduces (c : WSChannel) (vars : List ℝ) (pars : List NuisPar) (v : Vals)
    (hn : ∀ par ∈ pars, par.nominal = v par.name) (bins : List BinOut) (w : Vals) (hb : fillChannel id c 1 vars pars v = .ok (bins, w))
    (i : ℕ) (hi : i < c.nbins) (U : Vals → ℝ) (A : Fin c.samples.length → Vals → ℝ) (h : Additive c i U A) (ho : OwnNorms c)
    (hd : ∃ hd : c.dflt < c.samples.length, c.samples[c.dflt].normpar = none) (hv : ∀ q, IsNorm c q → v q ≠ 0)
    (k j : ℕ) (par : NuisPar) (x : ℝ) (hk : pars[k]? = some par) (hj : vars[j]? = some x) (hpar : ¬ IsNorm c par.name)
    (hfull : ∀ s, yieldOf c i s v = 0 → yieldOf c i s (moved v par (x * par.error)) = 0)
    (u : Vals) (hu : ∀ q, ¬ IsNorm c q → u q = moved v par (x * par.error) q) :
    ∃ b d e, bins[i]? = some b ∧ b.impacts[k]? = some d ∧ d[j]? = some e ∧
      c.expected i u = ∑ s : Fin c.samples.length,
        (c.samples[s].normpar.elim 1 fun p => u p / v p) * b.nominal.getD s 0 * (1 + e.2.getD s 0) := by
  obtain ⟨b, d, e, h1, h2, h3, _, h4⟩ := (c86_default id c vars pars v hn).2 bins w hb i hi k j par x hk hj
  refine ⟨b, d, e, h1, h2, h3, ?_⟩
  obtain ⟨hdl, hdn⟩ := hd
  have key : ∀ s : Fin c.samples.length, b.nominal.getD s 0 * (1 + e.2.getD s 0) = yieldOf c i s (moved v par (x * par.error)) := by
    intro s
    obtain ⟨hnom, y, hy, hne, h0⟩ := h4 s
    rw [List.getD_eq_getElem?_getD, List.getD_eq_getElem?_getD, hnom, hy]
    simp only [id, Option.getD_some]
    by_cases hz : yieldOf c i s v = 0
    · rw [hz, zero_mul, hfull s hz]
    · exact hne hz
  rw [← (c86_additive c i U A h ho u).2 hdl]
  refine Finset.sum_congr rfl fun s _ => ?_
  rw [mul_assoc, key s, (c86_additive c i U A h ho u).1 s, (c86_additive c i U A h ho _).1 s, h.unit s u _ hu, h.rest u _ hu]
  rcases hs : c.samples[s].normpar with _ | p
  · simp
  · have hne : (s : ℕ) ≠ c.dflt := by
      intro hc
      have : c.samples[s] = c.samples[c.dflt] := by simp only [Fin.getElem_fin, hc]
      rw [this, hdn] at hs; cases hs
    have hp : IsNorm c p := ⟨_, List.getElem_mem s.2, hs⟩
    have hm : moved v par (x * par.error) p = v p := by
      have : p ≠ par.name := by rintro rfl; exact hpar hp
      simp [moved, this]
    simp only [Option.elim, if_neg hne, add_zero, hm]
    field_simp [hv p hp]

/-! ## In the model that is written -/

theorem lookup_at (s : ℕ) (x : ℝ) : ∀ (d : List (ℝ × List ℝ)), (d.map Prod.fst).Nodup → ∀ (j : ℕ) (e : ℝ × List ℝ), d[j]? = some e → e.1 = x →
    lookupVar (d.map fun e => (VarKey.num e.1, e.2.getD s 0)) x = .ok (e.2.getD s 0) := by
  intro d
  induction d with
  | nil => intro _ j e h; simp at h
  | cons a d ih =>
    intro hd j e h hx
    rw [List.map_cons, List.nodup_cons] at hd
    rcases j with _ | j
    · rw [List.getElem?_cons_zero] at h; cases h
      simp [lookupVar, hx]
    · rw [List.getElem?_cons_succ] at h
      have hne : a.1 ≠ x := by
        rintro rfl
        exact hd.1 (List.mem_map.2 ⟨e, List.mem_of_getElem? h, hx⟩)
      rw [List.map_cons, lookupVar, if_neg (by simpa using hne)]
      exact ih hd.2 j e h hx

theorem get?_named {β : Type} (f : NuisPar × ℕ → β) : ∀ (pars : List NuisPar) (n : ℕ), (pars.map NuisPar.name).Nodup → ∀ (k : ℕ) (par : NuisPar),
    pars[k]? = some par → Dict.get? ((pars.zipIdx n).map fun pk => (pk.1.name, f pk) : Dict β) par.name = some (f (par, n + k)) := by
  intro pars
  induction pars with
  | nil => intro n _ k par h; simp at h
  | cons q pars ih =>
    intro n hd k par h
    rw [List.map_cons, List.nodup_cons] at hd
    rw [List.zipIdx_cons, List.map_cons]
    rcases k with _ | k
    · rw [List.getElem?_cons_zero] at h; cases h
      simp [Dict.get?]
    · rw [List.getElem?_cons_succ] at h
      have hne : par.name ≠ q.name := by
        intro he
        exact hd.1 (he ▸ List.mem_map.2 ⟨par, List.mem_of_getElem? h, rfl⟩)
      have := ih (n + 1) hd.2 k par h
      rw [show n + 1 + k = n + (k + 1) by ring] at this
      rw [← this]
      simp [Dict.get?, hne.symm]

/-- C86.  In the sample that is written, the impact which the model finds for a parameter and a variation is the one of the workspace. -/
theorem c86_supplied (trim : ℝ → ℝ) (c : WSChannel) (vars : List ℝ) (pars : List NuisPar) (v : Vals)
    (hn : ∀ par ∈ pars, par.nominal = v par.name) (bins : List BinOut) (w : Vals) (hb : fillChannel trim c 1 vars pars v = .ok (bins, w))
    (hnames : (pars.map NuisPar.name).Nodup) (hvars : vars.Nodup) (s : Fin c.samples.length) (smp : Sample)
    (hs : smp.impacts = (sampleOut bins pars s).2) (i : ℕ) (hi : i < c.nbins) (par : NuisPar) (hp : par ∈ pars) (x : ℝ) (hx : x ∈ vars) (hx0 : x ≠ 0) :
    ∃ y, SuppliedImpact smp par.name i x y ∧
      (yieldOf c i s v ≠ 0 → yieldOf c i s v * (1 + y) = yieldOf c i s (moved v par (x * par.error))) ∧ (yieldOf c i s v = 0 → y = 0) := by
  obtain ⟨k, hk⟩ := List.mem_iff_getElem?.1 hp
  obtain ⟨j, hj⟩ := List.mem_iff_getElem?.1 hx
  obtain ⟨b, d, e, h1, h2, h3, h4, h5⟩ := (c86_default trim c vars pars v hn).2 bins w hb i hi k j par x hk hj
  obtain ⟨_, y, hy, hne, h0⟩ := h5 s
  obtain ⟨_, hf⟩ := (c86_entries trim c 1 vars pars v hn _ _).1 hb
  refine ⟨y, .inr ⟨hx0, ?_⟩, hne, h0⟩
  have hget : smp.impacts.get? par.name = some (.perBin (bins.map fun b => (b.impacts.getD k []).map fun e => (.num e.1, e.2.getD s 0))) := by
    rw [hs]
    have := get?_named (fun pk => Impact.perBin (bins.map fun b => (b.impacts.getD pk.2 []).map fun e => (.num e.1, e.2.getD (s : ℕ) 0))) pars 0 hnames k par hk
    simpa [sampleOut] using this
  have hkeys : ∀ b ∈ bins, (b.impacts.getD k []).map Prod.fst = vars := by
    intro b hbm
    obtain ⟨m, hm⟩ := List.mem_iff_getElem?.1 hbm
    have hlen := hf.length_eq
    have hm2 : m < c.nbins := by
      have := (List.getElem?_eq_some_iff.1 hm).1
      rw [List.length_range] at hlen; omega
    obtain ⟨b', hb', hbi⟩ := forall₂_get hf m m (by simp [hm2])
    rw [hm] at hb'; cases hb'
    obtain ⟨d', hd', hdi⟩ := forall₂_get hbi.impacts k par hk
    rw [List.getD_eq_getElem?_getD, hd', Option.getD_some]
    clear hd' hj hvars hx hk hp h1 h2 h3 h4 hget hbi
    clear hb hf
    induction hdi with
    | nil => rfl
    | cons hab _ ih => rw [List.map_cons, ih, hab.1]
  have hlook : ∀ b ∈ bins, ∃ e, (b.impacts.getD k [])[j]? = some e ∧ e.1 = x ∧
      lookupVar ((b.impacts.getD k []).map fun e => (VarKey.num e.1, e.2.getD (s : ℕ) 0)) x = .ok (e.2.getD (s : ℕ) 0) := by
    intro b hbm
    have hkb := hkeys b hbm
    rw [← hkb, List.getElem?_map, Option.map_eq_some_iff] at hj
    obtain ⟨e, he, hex⟩ := hj
    exact ⟨e, he, hex, lookup_at s x _ (by rw [hkb]; exact hvars) j e he hex⟩
  refine ⟨?_, ?_⟩
  · unfold Sample.availableVariations
    rw [hget]
    rcases hbins : bins with _ | ⟨b0, bs⟩
    · rw [hbins] at h1; simp at h1
    · have hm : b0 ∈ bins := by rw [hbins]; exact List.mem_cons_self ..
      simp only [List.map_cons, List.map_map, Function.comp_def, VarKey.toReal]
      have := hkeys b0 hm
      simpa [this] using (show x ∈ (b0.impacts.getD k []).map Prod.fst by rw [this]; exact hx)
  · unfold Sample.impact
    rw [hget]
    dsimp only
    have hmap : ∃ r, (bins.map fun b => (b.impacts.getD k []).map fun e => (VarKey.num e.1, e.2.getD (s : ℕ) 0)).mapM (fun d => lookupVar d x) = .ok r ∧
        List.Forall₂ (fun b y => lookupVar ((b.impacts.getD k []).map fun e => (VarKey.num e.1, e.2.getD (s : ℕ) 0)) x = .ok y) bins r := by
      clear h1 hf hkeys hget hb hs
      induction bins with
      | nil => exact ⟨[], rfl, .nil⟩
      | cons b0 bs ih =>
        obtain ⟨r, hr, hr2⟩ := ih fun b hb => hlook b (List.mem_cons_of_mem _ hb)
        obtain ⟨e, _, _, he⟩ := hlook b0 (List.mem_cons_self ..)
        refine ⟨e.2.getD s 0 :: r, ?_, .cons he hr2⟩
        rw [List.map_cons, List.mapM_cons, he]; simp only [bind_ok]; rw [hr]; rfl
    obtain ⟨r, hr, hr2⟩ := hmap
    refine ⟨r, hr, ?_⟩
    obtain ⟨y', hy', hly⟩ := forall₂_get hr2 i b h1
    rw [List.getD_eq_getElem?_getD, hy', Option.getD_some]
    obtain ⟨e', he', _, hle⟩ := hlook b (List.mem_of_getElem? h1)
    rw [hle] at hly
    have hd' : b.impacts.getD k [] = d := by rw [List.getD_eq_getElem?_getD, h2, Option.getD_some]
    rw [hd', h3] at he'; cases he'
    have := Except.ok.inj (ε := PyErr) hly
    rw [← this, List.getD_eq_getElem?_getD, hy, Option.getD_some]

/-- C86.  In the model that is written and loaded, for a channel of a workspace and one nuisance parameter moved by one of the variations, the
factor that the model applies to the nominal yield of a sample is the ratio of the yields of the workspace: always when the impacts are
used linearly, and when this ratio is between 1/100 and 100 otherwise. -/
theorem c86_model {n P : ℕ} (trim : ℝ → ℝ) (c : WSChannel) (vars : List ℝ) (pars : List NuisPar) (v : Vals)
    (hn : ∀ par ∈ pars, par.nominal = v par.name) (bins : List BinOut) (w : Vals) (hb : fillChannel trim c 1 vars pars v = .ok (bins, w))
    (hnames : (pars.map NuisPar.name).Nodup) (hvars : vars.Nodup)
    (m : Mdl n P) (width : Nat) (hu : m.Uniform width) (ha : m.use_asym_impacts = true) (hvar : m.variations = none)
    (A : Mdl.Arrays) (hA : m.setInternal = .ok A) (pre post : List Channel) (ch : Channel) (hch : m.channels = pre ++ ch :: post)
    (pos : Nat) (smp : Sample) (hsm : ch.samples[pos]? = some smp) (hnb : ch.nbins = c.nbins)
    (s : Fin c.samples.length) (hs : smp.impacts = (sampleOut bins pars s).2) (i : ℕ) (hi : i < c.nbins)
    (k : Fin P) (par : NuisPar) (hp : par ∈ pars) (hpk : (m.nps k).name = par.name) (x : ℝ) (hx : x ∈ vars) (hx0 : x ≠ 0)
    (hy : yieldOf c i s v ≠ 0)
    (hclamp : m.use_linear_nps = false → 1 / 100 ≤ yieldOf c i s (moved v par (x * par.error)) / yieldOf c i s v ∧
      yieldOf c i s (moved v par (x * par.error)) / yieldOf c i s v ≤ 100) :
    yieldOf c i s v * m.kExp A (Pi.single k x) pos ((pre.map (·.nbins)).sum + i) = yieldOf c i s (moved v par (x * par.error)) := by
  obtain ⟨y, hsup, hne, _⟩ := c86_supplied trim c vars pars v hn bins w hb hnames hvars s smp hs i hi par hp x hx hx0
  have h1 := hne hy
  have hy1 : 1 + y = yieldOf c i s (moved v par (x * par.error)) / yieldOf c i s v := by rw [← h1]; field_simp
  have := c08_kexp_reproduces m width hu ha hvar A hA pre post ch hch pos smp hsm i (by rw [hnb]; exact hi) (Pi.single k x) (Pi.single k y) (by
    intro p
    by_cases hpk2 : p = k
    · subst hpk2; rw [Pi.single_eq_same, Pi.single_eq_same, hpk]; exact hsup
    · rw [Pi.single_eq_of_ne hpk2, Pi.single_eq_of_ne hpk2]; exact .inl ⟨rfl, rfl⟩)
  rw [this]
  by_cases hl : m.use_linear_nps = true
  · rw [if_pos hl, Finset.sum_pi_single' k y, if_pos (Finset.mem_univ _), h1]
  · rw [if_neg hl, Finset.prod_eq_single k]
    · rw [Pi.single_eq_same, hy1]
      obtain ⟨h1, h2⟩ := hclamp (by simpa using hl)
      rw [min_eq_left h2, max_eq_left h1]; field_simp
    · intro p _ hpk; rw [Pi.single_eq_of_ne hpk]; norm_num
    · intro hh; exact absurd (Finset.mem_univ _) hh

/-! ## Examples -/

namespace ConvDemo

/-- A signal scaled by `mu`, a background scaled by `nb` and a part without normalisation, all of which depend on `np`. -/
noncomputable def chan : WSChannel where
  samples := [⟨"sig", some "mu"⟩, ⟨"bkg", some "nb"⟩, ⟨"unassigned_background", none⟩]
  dflt := 2
  nbins := 2
  expected := fun i v => (1 + v "np" / 2) + (v "mu" * (3 + v "np") + v "nb" * (5 + (i : ℝ) - v "np"))

theorem isNorm (q : String) : IsNorm chan q ↔ q = "mu" ∨ q = "nb" := by simp [IsNorm, chan, eq_comm]

theorem additive (i : ℕ) : Additive chan i (fun v => 1 + v "np" / 2)
    (fun s v => if (s : ℕ) = 0 then 3 + v "np" else if (s : ℕ) = 1 then 5 + (i : ℝ) - v "np" else 0) := by
  have hnp : ¬ IsNorm chan "np" := by rw [isNorm]; decide
  refine ⟨fun v => ?_, fun v w h => by rw [h "np" hnp], fun s v w h => ?_⟩
  · have : chan.samples.length = 3 := rfl
    show _ = _ + ∑ s : Fin 3, _
    rw [Fin.sum_univ_three]
    simp [chan]
  · rw [h "np" hnp]

theorem own : OwnNorms chan := by
  intro s t h hn
  match s, t with
  | ⟨0, _⟩, ⟨0, _⟩ | ⟨1, _⟩, ⟨1, _⟩ | ⟨2, _⟩, ⟨2, _⟩ => rfl
  | ⟨0, _⟩, ⟨1, _⟩ | ⟨0, _⟩, ⟨2, _⟩ | ⟨1, _⟩, ⟨0, _⟩ | ⟨1, _⟩, ⟨2, _⟩ | ⟨2, _⟩, ⟨0, _⟩ | ⟨2, _⟩, ⟨1, _⟩ => simp [chan] at h

/-- `mu = 1`, `nb = 2`, `np = 0`. -/
noncomputable def vals : Vals := fun q => if q = "mu" then 1 else if q = "nb" then 2 else 0

/-- The hypotheses of `c86_reproduces` are met: at `mu = 7`, `nb = 3`, `np = -1` the model that is written gives the yield of the workspace. -/
example : ∃ bins b d e, fillChannel id chan 1 [1, -1] [⟨"np", 0, 1⟩] vals = .ok (bins, vals) ∧ bins[1]? = some b ∧ b.impacts[0]? = some d ∧
    d[1]? = some e ∧ 1 / 2 + (7 * 2 + 3 * 7) = ∑ s : Fin chan.samples.length, (chan.samples[s].normpar.elim 1 fun p =>
      (Function.update (Function.update (Function.update vals "mu" 7) "nb" 3) "np" (-1)) p / vals p) * b.nominal.getD s 0 * (1 + e.2.getD s 0) := by
  have hn : ∀ par ∈ [(⟨"np", 0, 1⟩ : NuisPar)], par.nominal = vals par.name := by simp [vals]
  obtain ⟨bins, hb⟩ := (c86_default id chan [1, -1] [⟨"np", 0, 1⟩] vals hn).1
  obtain ⟨b, d, e, h1, h2, h3, h⟩ := c86_reproduces chan [1, -1] [⟨"np", 0, 1⟩] vals hn bins vals hb 1 (by simp [chan]) _ _ (additive 1) own
    ⟨by simp [chan], rfl⟩ (by
      intro q hq
      rcases (isNorm q).1 hq with rfl | rfl <;> simp [vals]) 0 1 ⟨"np", 0, 1⟩ (-1) rfl rfl (by rw [isNorm]; decide)
    (by
      intro s hz
      exfalso
      rw [(c86_additive chan 1 _ _ (additive 1) own vals).1] at hz
      match s with
      | ⟨0, _⟩ => simp [chan, vals] at hz
      | ⟨1, _⟩ => simp [chan, vals] at hz; norm_num at hz
      | ⟨2, _⟩ => simp [chan, vals] at hz)
    (Function.update (Function.update (Function.update vals "mu" 7) "nb" 3) "np" (-1)) (by
      intro q hq
      rw [isNorm] at hq
      push Not at hq
      by_cases hnp : q = "np"
      · subst hnp; simp [moved, vals]
      · simp [moved, hnp, hq.1, hq.2])
  refine ⟨bins, b, d, e, hb, h1, h2, h3, ?_⟩
  rw [← h]
  simp [chan, vals]
  norm_num

/-- Finding F117 in an example: two processes of 3 events each, scaled by one parameter; the converted model has 12 events, and the
workspace 6. -/
example : let c : WSChannel := ⟨[⟨"ggF", some "mu"⟩, ⟨"VBF", some "mu"⟩, ⟨"unassigned_background", none⟩], 2, 1, fun _ v => v "mu" * 3 + v "mu" * 3⟩
    c.expected 0 (fun _ => 1) = 6 ∧ ∑ s, yieldOf c 0 s (fun _ => 1) = 12 := by
  intro c
  have hn : IsNorm c "mu" := ⟨⟨"ggF", some "mu"⟩, by simp [c], rfl⟩
  have h0 : restOf c 0 (fun _ => 1) = 0 := by simp [restOf, onlyNorm, hn, c]
  refine ⟨by norm_num [c], ?_⟩
  show ∑ s : Fin 3, _ = (12 : ℝ)
  rw [Fin.sum_univ_three]
  simp only [yieldOf, h0]
  simp [onlyNorm, c]
  norm_num

/-- One sample without normalisation, that depends on a nuisance parameter. -/
noncomputable def one : WSChannel where
  samples := [⟨"bkg", none⟩]
  dflt := 0
  nbins := 2
  expected := fun i v => if i = 0 then 5 * (1 + v "np" / 10) else if 0 ≤ v "np" then 6 * (1 + v "np" / 5) else 6 * (1 + v "np" / 10)

theorem one_yield (i : ℕ) (s : Fin one.samples.length) (v : Vals) : yieldOf one i s v = one.expected i v := by
  have hv : onlyNorm one none v = v := by
    funext q; rw [onlyNorm, if_neg]; rintro ⟨⟨s, hs, hq⟩, _⟩; simp [one] at hs; subst hs; simp at hq
  match s with
  | ⟨0, _⟩ => simp only [yieldOf, restOf, hv]; simp [one]

theorem one_bins : fillChannel id one 1 [1, -1] [⟨"np", 0, 1⟩] (fun _ => 0) =
    .ok ([⟨[5], [[(1, [1/10]), (-1, [-1/10])]]⟩, ⟨[6], [[(1, [1/5]), (-1, [-1/10])]]⟩], fun _ => 0) := by
  rw [c86_entries _ _ _ _ _ _ (by simp)]
  refine ⟨rfl, ?_⟩
  have hl : ∀ s : Fin one.samples.length, (s : ℕ) = 0 := fun s => by have : one.samples.length = 1 := rfl; omega
  have hr : List.range one.nbins = [0, 1] := rfl
  rw [hr]
  refine .cons ⟨?_, .cons (.cons ⟨rfl, rfl, fun s => ?_⟩ (.cons ⟨rfl, rfl, fun s => ?_⟩ .nil)) .nil⟩
    (.cons ⟨?_, .cons (.cons ⟨rfl, rfl, fun s => ?_⟩ (.cons ⟨rfl, rfl, fun s => ?_⟩ .nil)) .nil⟩ .nil)
  all_goals first
    | (rw [impactIs_one, one_yield, one_yield]; right; norm_num [one, moved, hl])
    | (simp only [one_yield]; norm_num [one])

/-- The hypotheses of `c86_model` are met by the demo model, whose background has the impacts found in this channel. -/
example : ∃ A, (Demo.mdl true true).setInternal = .ok A ∧ 6 * (Demo.mdl true true).kExp A (Pi.single 0 (-1)) 1 1 = 6 * (1 - 1 / 10) := by
  obtain ⟨A, hA⟩ := Demo.internalAsym true
  refine ⟨A, hA, ?_⟩
  have h := c86_model id one [1, -1] [⟨"np", 0, 1⟩] (fun _ => 0) (by simp) _ _ one_bins (by simp) (by norm_num) (Demo.mdl true true) 1 (Demo.uniform true)
    rfl rfl A hA [] [] ⟨"c", false, 2, fun _ _ => 0, [Demo.sig, Demo.bkg]⟩ rfl 1 Demo.bkg rfl rfl ⟨0, by simp [one]⟩
    (by simp [Demo.bkg, sampleOut]) 1 (by simp [one]) 0 ⟨"np", 0, 1⟩ (by simp) rfl (-1) (by simp) (by norm_num)
    (by rw [one_yield]; norm_num [one]) (by simp [Demo.mdl])
  rw [one_yield, one_yield] at h
  norm_num [one, moved] at h
  rw [h]; norm_num

end ConvDemo

end Verif.Props
