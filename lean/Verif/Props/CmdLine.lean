import Verif.Lemmas.CmdLine
import Verif.Lemmas.FitData
import Mathlib.Tactic.NormNum
import Mathlib.Tactic.FieldSimp
import Mathlib.Tactic.Linarith
/-!
# C63: parameter assignments written on the command line

`render as` is the text `var1=val1,var2=val2,...`; `Plain` texts contain no `,`, `=` or blank.  The library
functions (`float`, `int`, regular expressions) are arbitrary.
-/
namespace Verif.Props
open Verif Verif.Cmd

/-- Specification: an assignment selects a parameter if the parameter is of a kind that is looked up and its name
matches. -/
def Selects (L : Lib) (M : Names) (o : Opts) (a : Str × Str) (k : String) : Prop :=
  (o.match_pois = true ∧ k ∈ M.pois ∨ o.match_nps = true ∧ k ∈ M.nps) ∧ L.reMatch a.1 k = true

theorem CmdLine.mem_selected (L : Lib) (M : Names) (o : Opts) (a : Str × Str) (k : String) :
    k ∈ selected L M o a.1 ↔ Selects L M o a k := by
  unfold selected Selects
  cases o.match_pois <;> cases o.match_nps <;> simp
  tauto

theorem CmdLine.selected_ne (L : Lib) (M : Names) (o : Opts) (a : Str × Str) :
    selected L M o a.1 ≠ [] ↔ ∃ k, Selects L M o a k := by
  rw [List.ne_nil_iff_exists_cons]
  constructor
  · rintro ⟨k, l, h⟩
    exact ⟨k, (CmdLine.mem_selected L M o a k).1 (by rw [h]; simp)⟩
  · rintro ⟨k, h⟩
    have := (CmdLine.mem_selected L M o a k).2 h
    cases hs : selected L M o a.1 with
    | nil => rw [hs] at this; simp at this
    | cons x l => exact ⟨x, l, rfl⟩

/-- C63.  Assignments of numbers: `process_setvals` succeeds, and a parameter gets the value of the last
assignment that selects it (scaled, for an NP, if asked for), and is absent if there is none.  With scaling, this
needs that no assignment selects more than one NP, and that POIs and NPs have different names. -/
theorem c63_setvals (L : Lib) (M : Names) (o : Opts) (as : List (Str × Str)) (h0 : as ≠ [])
    (hp : ∀ a ∈ as, Plain a.1 ∧ Plain a.2)
    (hsel : ∀ a ∈ as, ∃ k, Selects L M o a k) (hval : ∀ a ∈ as, ∃ v, L.float a.2 = some v)
    (hd : o.scale_nps = true → ∀ p ∈ M.pois, p ∉ M.nps)
    (h1 : o.scale_nps = true → ∀ a ∈ as, (M.nps.filter (L.reMatch a.1)).length ≤ 1) :
    ∃ D, processSetvals L M o (render as) = .ok D ∧ ∀ k,
      (D.get? k = none ∧ ∀ a ∈ as, ¬ Selects L M o a k) ∨
      ∃ pre a post v, as = pre ++ a :: post ∧ Selects L M o a k ∧ (∀ b ∈ post, ¬ Selects L M o b k) ∧
        L.float a.2 = some v ∧
        D.get? k = some (.num (if o.scale_nps = true ∧ k ∈ M.nps then M.scaled k v else v)) := by
  obtain ⟨D, hD, hk⟩ := foldlM_assign L M o as [] hd (fun a ha hs => h1 hs a ha)
    (fun a ha => ⟨(CmdLine.selected_ne L M o a).2 (hsel a ha), fun _ h => by
      obtain ⟨v, hv⟩ := hval a ha; rw [hv] at h; cases h⟩)
  refine ⟨D, by rw [processSetvals, fields_render as h0 hp]; exact hD, fun k => ?_⟩
  rw [hk k]
  cases hf : as.reverse.find? fun a => decide (k ∈ selected L M o a.1) with
  | none =>
    refine Or.inl ⟨rfl, fun a ha hs => ?_⟩
    have := List.find?_eq_none.1 hf a (by simpa using ha)
    exact this (by simpa using (CmdLine.mem_selected L M o a k).2 hs)
  | some a =>
    obtain ⟨h2, l1, l2, h3, h4⟩ := List.find?_eq_some_iff_append.1 hf
    obtain ⟨v, hv⟩ := hval a (by
      have : a ∈ as.reverse := by rw [h3]; simp
      simpa using this)
    refine Or.inr ⟨l2.reverse, a, l1.reverse, v, ?_, (CmdLine.mem_selected L M o a k).1 (by simpa using h2), ?_,
      hv, ?_⟩
    · have := congrArg List.reverse h3
      simpa using this
    · intro b hb hs
      have := h4 b (by simpa using hb)
      simp only [Bool.not_eq_true', decide_eq_false_iff_not] at this
      exact this ((CmdLine.mem_selected L M o b k).2 hs)
    · simp [valueFor, hv, rawVal]

/-- C63: an assignment that selects nothing, or whose value is not a number, is an error. -/
theorem c63_setvals_error (L : Lib) (M : Names) (o : Opts) (as : List (Str × Str))
    (hp : ∀ a ∈ as, Plain a.1 ∧ Plain a.2)
    (h : ∃ a ∈ as, (∀ k, ¬ Selects L M o a k) ∨ o.check_val = true ∧ L.float a.2 = none) :
    processSetvals L M o (render as) = .error .valueError := by
  have h0 : as ≠ [] := by rintro rfl; obtain ⟨a, ha, _⟩ := h; simp at ha
  rw [processSetvals, fields_render as h0 hp]
  refine foldlM_assign_error L M o as [] ?_
  obtain ⟨a, ha, h'⟩ := h
  refine ⟨a, ha, h'.imp_left (fun hn => ?_)⟩
  by_contra hc
  obtain ⟨k, hk⟩ := (CmdLine.selected_ne L M o a).1 hc
  exact hn k hk

/-- C63: blanks are ignored, in all parsers. -/
theorem c63_blanks (L : Lib) (M : Names) (o : Opts) (s : Str) (pois : Dict (ModelPOI ℝ)) (known : List String)
    (check : Bool) :
    processSetvals L M o (s.filter (· ≠ ' ')) = processSetvals L M o s ∧
    processSetranges L (s.filter (· ≠ ' ')) pois = processSetranges L s pois ∧
    processPois L known check (s.filter (· ≠ ' ')) = processPois L known check s := by
  refine ⟨?_, ?_, ?_⟩ <;> simp only [processSetvals, processSetranges, processPois, fields_filter]

/-- Finding F63: with scaling (used by `prune_model --nps`), a value assigned to several NPs by one pattern is
scaled again and again: the second NP gets the value scaled by the first NP and then by the second. -/
theorem c63_scaling_compounds (L : Lib) (M : Names) (o : Opts) (ho : o.scale_nps = true)
    (hm : o.match_nps = true) (var val : Str) (hp : Plain var ∧ Plain val) (v : ℝ) (hv : L.float val = some v)
    (a b : String) (hab : a ≠ b) (hsel : selected L M o var = [a, b])
    (hn : M.nps.filter (L.reMatch var) = [a, b]) :
    ∃ D, processSetvals L M o (render [(var, val)]) = .ok D ∧
      D.get? a = some (.num (M.scaled a v)) ∧ D.get? b = some (.num (M.scaled b (M.scaled a v))) := by
  refine ⟨[(a, .num (M.scaled a v)), (b, .num (M.scaled b (M.scaled a v)))], ?_, ?_, ?_⟩
  · rw [processSetvals, fields_render _ (by simp) (by simpa using hp)]
    have := assignOne_eq L M o [] (var, val)
    simp only [List.map_cons, List.map_nil, List.foldlM_cons, List.foldlM_nil]
    rw [this, hsel, hm, hn, hv]
    simp [assignLoop, ho, rawVal, Dict.set, hab]
  · simp [Dict.get?]
  · simp [Dict.get?, hab]

/-- The hypotheses of `c63_setvals` (scaled, one NP) and `c63_scaling_compounds` are met by a small model: POI `mu`,
NPs `a`, `b` of unit width and nominal value 1, patterns that are names or `*`. -/
example : ∃ (L : Lib) (M : Names), L.float "3".toList = some 3 ∧
    M.nps.filter (L.reMatch "*".toList) = ["a", "b"] ∧ selected L M { scale_nps := true } "*".toList = ["a", "b"] ∧
    M.scaled "b" (M.scaled "a" 3) = 1 ∧
    (M.nps.filter (L.reMatch "a".toList)).length = 1 ∧ Selects L M { scale_nps := true } ("a".toList, "3".toList) "a" := by
  refine ⟨⟨fun v n => (v = "*".toList && n ≠ "mu") || v = n.toList,
    fun t => if t = "3".toList then some 3 else none, fun _ => none⟩, ⟨["mu"], ["a", "b"], fun _ v => v - 1⟩, ?_⟩
  refine ⟨by simp, by decide, by decide, by norm_num, by decide, ?_⟩
  refine ⟨Or.inr ⟨rfl, by simp⟩, by decide⟩

/-- Specification of a list of hypotheses `assignments|assignments|...`. -/
def renderList (ls : List (List (Str × Str))) : Str := ['|'].intercalate (ls.map render)

theorem CmdLine.not_mem_render {c : Char} (hc : c ≠ ',' ∧ c ≠ '=') (as : List (Str × Str))
    (h : ∀ a ∈ as, c ∉ a.1 ∧ c ∉ a.2) : c ∉ render as := by
  unfold render
  intro hm
  simp only [List.intercalate] at hm
  obtain ⟨l, hl, hcl⟩ := List.mem_flatten.1 hm
  have hl' : l = [','] ∨ l ∈ as.map fun a => a.1 ++ '=' :: a.2 := by
    generalize as.map (fun a => a.1 ++ '=' :: a.2) = xs at hl
    induction xs with
    | nil => simp at hl
    | cons x xs ih =>
      cases xs with
      | nil => simp at hl; simp [hl]
      | cons y ys =>
        simp only [List.intersperse_cons₂, List.mem_cons] at hl
        rcases hl with rfl | rfl | hl
        · simp
        · simp
        · rcases ih (by simpa using hl) with h | h
          · exact Or.inl h
          · exact Or.inr (List.mem_cons_of_mem _ h)
  rcases hl' with rfl | hl'
  · simp at hcl; exact hc.1 hcl
  · obtain ⟨a, ha, rfl⟩ := List.mem_map.1 hl'
    simp only [List.mem_append, List.mem_cons] at hcl
    rcases hcl with h' | h' | h'
    · exact (h a ha).1 h'
    · exact hc.2 h'
    · exact (h a ha).2 h'

theorem CmdLine.mem_right {α β : Type} {R : α → β → Prop} {l : List α} {l' : List β}
    (h : List.Forall₂ R l l') {b : β} (hb : b ∈ l') : ∃ a ∈ l, R a b := by
  induction h with
  | nil => simp at hb
  | cons hx _ ih =>
    rcases List.mem_cons.1 hb with rfl | hb
    · exact ⟨_, by simp, hx⟩
    · obtain ⟨a, ha, h⟩ := ih hb
      exact ⟨a, by simp [ha], h⟩

theorem CmdLine.assignLoop_nodup (M : Names) (o : Opts) (nps : List String) (val : Str) (ps : List String)
    (fv : Option ℝ) (d : Dict Val) (h : d.keys.Nodup) : (assignLoop M o nps val ps fv d).keys.Nodup := by
  induction ps generalizing fv d with
  | nil => exact h
  | cons p ps ih => exact ih _ _ (Dict.nodup_keys_set _ _ _ h)

theorem CmdLine.setvals_nodup (L : Lib) (M : Names) (o : Opts) (as : List (Str × Str)) (d D : Dict Val)
    (h : d.keys.Nodup) (hD : (as.map fun a => [a.1, a.2]).foldlM (assignOne L M o) d = .ok D) :
    D.keys.Nodup := by
  induction as generalizing d with
  | nil => cases hD; exact h
  | cons a as ih =>
    simp only [List.map_cons, List.foldlM_cons, assignOne_eq] at hD
    split at hD
    · cases hD
    · rw [bind_ok] at hD
      exact ih _ (CmdLine.assignLoop_nodup _ _ _ _ _ _ _ h) hD

/-- C63: lists of hypotheses with ranges (`process_setval_list`).  For a well-formed list of assignments (each
selects a parameter; each value is a number or a well-formed range), the result is obtained: for each list of
assignments in turn, all combinations of the values of its parameters, where the values of a parameter are those of
the last assignment that selects it.  The recursion ends. -/
theorem c63_list (L : Lib) (M : Names) (mp mn : Bool) (ls : List (List (Str × Str))) (h0 : ls ≠ [])
    (hl0 : ∀ as ∈ ls, as ≠ [])
    (hp : ∀ as ∈ ls, ∀ a ∈ as, (Plain a.1 ∧ Plain a.2) ∧ '|' ∉ a.1 ∧ '|' ∉ a.2)
    (hsel : ∀ as ∈ ls, ∀ a ∈ as, ∃ k, Selects L M ⟨mp, mn, false, false⟩ a k)
    (hval : ∀ as ∈ ls, ∀ a ∈ as, (∃ v, L.float a.2 = some v) ∨ ∃ vs, valuesSpec L a.2 = .ok vs) :
    ∃ (ds : List (Dict Val)) (depth : Nat),
      List.Forall₂ (fun as d => d.keys.Nodup ∧ ∀ k,
        (d.get? k = none ∧ ∀ a ∈ as, ¬ Selects L M ⟨mp, mn, false, false⟩ a k) ∨
        ∃ pre a post, as = pre ++ a :: post ∧ Selects L M ⟨mp, mn, false, false⟩ a k ∧
          (∀ b ∈ post, ¬ Selects L M ⟨mp, mn, false, false⟩ b k) ∧
          d.get? k = some (rawVal (L.float a.2) a.2)) ls ds ∧
      ∀ fuel ≥ depth, processSetvalList L M mp mn fuel (renderList ls) =
        .ok (ds.flatMap (combinations L)) := by
  have key : ∀ as ∈ ls, ∃ d, processSetvals L M ⟨mp, mn, false, false⟩ (render as) = .ok d ∧
      d.keys.Nodup ∧ ∀ k,
        (d.get? k = none ∧ ∀ a ∈ as, ¬ Selects L M ⟨mp, mn, false, false⟩ a k) ∨
        ∃ pre a post, as = pre ++ a :: post ∧ Selects L M ⟨mp, mn, false, false⟩ a k ∧
          (∀ b ∈ post, ¬ Selects L M ⟨mp, mn, false, false⟩ b k) ∧
          d.get? k = some (rawVal (L.float a.2) a.2) := by
    intro as has
    obtain ⟨D, hD, hk⟩ := foldlM_assign L M ⟨mp, mn, false, false⟩ as [] (fun h => by simp at h)
      (fun a _ h => by simp at h)
      (fun a ha => ⟨(CmdLine.selected_ne L M _ a).2 (hsel as has a ha), fun h => by simp at h⟩)
    refine ⟨D, ?_, CmdLine.setvals_nodup L M _ as [] D List.nodup_nil hD, fun k => ?_⟩
    · rw [processSetvals, fields_render as (hl0 as has) (fun a ha => (hp as has a ha).1)]; exact hD
    rw [hk k]
    cases hf : as.reverse.find? fun a => decide (k ∈ selected L M ⟨mp, mn, false, false⟩ a.1) with
    | none =>
      refine Or.inl ⟨rfl, fun a ha hs => ?_⟩
      have := List.find?_eq_none.1 hf a (by simpa using ha)
      exact this (by simpa using (CmdLine.mem_selected L M _ a k).2 hs)
    | some a =>
      obtain ⟨h2, l1, l2, h3, h4⟩ := List.find?_eq_some_iff_append.1 hf
      refine Or.inr ⟨l2.reverse, a, l1.reverse, ?_,
        (CmdLine.mem_selected L M _ a k).1 (by simpa using h2), ?_, ?_⟩
      · have := congrArg List.reverse h3
        simpa using this
      · intro b hb hs
        have := h4 b (by simpa using hb)
        simp only [Bool.not_eq_true', decide_eq_false_iff_not] at this
        exact this ((CmdLine.mem_selected L M _ b k).2 hs)
      · simp [valueFor]
  have hall : ∃ ds, List.Forall₂ (fun as d => processSetvals L M ⟨mp, mn, false, false⟩ (render as) = .ok d ∧
      d.keys.Nodup ∧ ∀ k,
        (d.get? k = none ∧ ∀ a ∈ as, ¬ Selects L M ⟨mp, mn, false, false⟩ a k) ∨
        ∃ pre a post, as = pre ++ a :: post ∧ Selects L M ⟨mp, mn, false, false⟩ a k ∧
          (∀ b ∈ post, ¬ Selects L M ⟨mp, mn, false, false⟩ b k) ∧
          d.get? k = some (rawVal (L.float a.2) a.2)) ls ds := by
    clear h0 hl0 hp hsel hval
    induction ls with
    | nil => exact ⟨[], .nil⟩
    | cons as ls ih =>
      obtain ⟨d, hd⟩ := key as (by simp)
      obtain ⟨ds, hds⟩ := ih (fun b hb => key b (by simp [hb]))
      exact ⟨d :: ds, .cons hd hds⟩
  obtain ⟨ds, hds⟩ := hall
  have hmap : (ls.map render).mapM (processSetvals L M ⟨mp, mn, false, false⟩) = .ok ds := by
    rw [mapM_ok_iff, List.forall₂_map_left_iff]
    exact hds.imp (fun _ _ h => h.1)
  have hmem : ∀ d ∈ ds, d.keys.Nodup ∧ ∀ kv ∈ d, kv.2.Ok L := by
    intro d hd
    obtain ⟨as, has, _, hn, hk⟩ := CmdLine.mem_right hds hd
    refine ⟨hn, fun kv hkv => ?_⟩
    have hg := (Dict.get?_eq_some_iff d hn kv.1 kv.2).2 hkv
    rcases hk kv.1 with ⟨h, _⟩ | ⟨pre, a, post, he, _, _, h⟩
    · rw [h] at hg; cases hg
    · rw [h] at hg
      have hv := Option.some.inj hg
      rw [← hv]
      rcases hval as has a (by rw [he]; simp) with ⟨v, hv'⟩ | ⟨vs, hvs⟩
      · simp [rawVal, hv', Val.Ok]
      · cases hf : L.float a.2 with
        | some v => simp [rawVal, Val.Ok]
        | none => exact ⟨vs, hvs⟩
  obtain ⟨n, hn⟩ : ∃ n, ∀ d ∈ ds, d.countP (fun kv => kv.2.isText) ≤ n := by
    clear * -
    induction ds with
    | nil => exact ⟨0, by simp⟩
    | cons d ds ih =>
      obtain ⟨n, hn⟩ := ih
      refine ⟨max n (d.countP fun kv => kv.2.isText), fun d' hd' => ?_⟩
      rcases List.mem_cons.1 hd' with rfl | hd'
      · exact le_max_right _ _
      · exact (hn d' hd').trans (le_max_left _ _)
  refine ⟨ds, n + 1, hds.imp (fun _ _ h => h.2), fun fuel hfuel => ?_⟩
  simp only [processSetvalList, renderList]
  rw [List.splitOn_intercalate]
  · rw [hmap, bind_ok]
    exact expandDicts_ok L n ds (fun d hd => (hmem d hd).1) (fun d hd => (hmem d hd).2) hn fuel (by omega)
  · intro l hl
    obtain ⟨as, has, rfl⟩ := List.mem_map.1 hl
    exact CmdLine.not_mem_render (by decide) as (fun a ha => (hp as has a ha).2)
  · simpa using h0

/-- C63: what the combinations are: exactly one dictionary for each choice of one value for each parameter, with
the parameters in the order given. -/
theorem c63_combinations (L : Lib) (d D : Dict Val) :
    D ∈ combinations L d ↔ List.Forall₂ (fun kv kv' => kv'.1 = kv.1 ∧
      match kv.2 with
      | .num v => kv'.2 = .num v
      | .text t => ∃ vs, valuesSpec L t = .ok vs ∧ ∃ x ∈ vs, kv'.2 = .num x) d D := by
  rw [mem_combinations]
  have : ∀ (kv kv' : String × Val), (kv'.1 = kv.1 ∧ ∃ x ∈ valuesOf L kv.2, kv'.2 = Val.num x) ↔
      (kv'.1 = kv.1 ∧ match kv.2 with
      | .num v => kv'.2 = .num v
      | .text t => ∃ vs, valuesSpec L t = .ok vs ∧ ∃ x ∈ vs, kv'.2 = .num x) := by
    rintro ⟨k, v⟩ ⟨k', v'⟩
    cases v with
    | num v => simp [valuesOf]
    | text t =>
      cases h : valuesSpec L t with
      | ok vs => simp [valuesOf, h]
      | error e => simp [valuesOf, h]
  simp only [this]

/-- C63: their number is the product of the numbers of values, so no combination is repeated unless a range
repeats a value. -/
theorem c63_combinations_count (L : Lib) (d : Dict Val) :
    (combinations L d).length = (d.map fun kv => (valuesOf L kv.2).length).prod := by
  induction d with
  | nil => rfl
  | cons a d ih =>
    obtain ⟨k, v⟩ := a
    simp only [combinations, List.length_flatMap, List.length_map, List.map_cons, List.prod_cons, ih]
    simp

/-- C63: the linear range `a:b:n` is the `n` values `a + i (b - a)/n`, `i < n`, without `b`; `a:b:n+`, with
`n ≥ 2`, is the `n` values `a + i (b - a)/(n - 1)`, the first being `a` and the last `b`. -/
theorem c63_range (L : Lib) (ta tb tn : Str) (h : ∀ t ∈ [ta, tb, tn], ':' ∉ t ∧ '~' ∉ t)
    (a b : ℝ) (n : Nat) (ha : L.float ta = some a) (hb : L.float tb = some b) (hn : L.int tn = some (n : Int))
    (hne : tn ≠ []) (hl : tn.getLast? ≠ some '+') :
    (∃ vs, valuesSpec L ([':'].intercalate [ta, tb, tn]) = .ok vs ∧ vs.length = n ∧
      ∀ i (hi : i < vs.length), vs[i] = a + i * ((b - a) / n)) ∧
    (2 ≤ n → ∃ vs, valuesSpec L ([':'].intercalate [ta, tb, tn ++ ['+']]) = .ok vs ∧ vs.length = n ∧
      (∀ i (hi : i < vs.length), vs[i] = a + i * ((b - a) / (n - 1))) ∧
      vs.head? = some a ∧ vs.getLast? = some b) := by
  have h1 := h ta (by simp)
  have h2 := h tb (by simp)
  have h3 := h tn (by simp)
  constructor
  · have hs : ([':'].intercalate [ta, tb, tn]).splitOn '~' = [[':'].intercalate [ta, tb, tn]] := by
      apply List.splitOn_eq_singleton
      simp [List.intercalate, h1.2, h2.2, h3.2]
    have hf : ([':'].intercalate [ta, tb, tn]).splitOn ':' = [ta, tb, tn] :=
      List.splitOn_intercalate _ (by simp [h1.1, h2.1, h3.1]) (by simp)
    obtain ⟨c, hc⟩ : ∃ c, tn.getLast? = some c := by
      cases hh : tn.getLast? with
      | none => exact absurd (List.getLast?_eq_none_iff.1 hh) hne
      | some c => exact ⟨c, rfl⟩
    have hcp : c ≠ '+' := by rintro rfl; exact hl hc
    refine ⟨((List.range n).map fun (i : Nat) => a + (i : ℝ) * ((b - a) / (n : ℝ))), ?_, ?_, ?_⟩
    · simp only [valuesSpec, hs, List.mapM_cons, List.mapM_nil, hf, blockValues, hc, hcp, if_false, hn, ha, hb,
        decide_false, linspace]
      rw [if_neg (by simp), if_neg (by simp)]
      simp [bind_ok, pure_ok]
    · simp
    · intro i hi; simp
  · intro hn2
    have hs : ([':'].intercalate [ta, tb, tn ++ ['+']]).splitOn '~' = [[':'].intercalate [ta, tb, tn ++ ['+']]] := by
      apply List.splitOn_eq_singleton
      simp [List.intercalate, h1.2, h2.2, h3.2]
    have hf : ([':'].intercalate [ta, tb, tn ++ ['+']]).splitOn ':' = [ta, tb, tn ++ ['+']] :=
      List.splitOn_intercalate _ (by simp [h1.1, h2.1, h3.1]) (by simp)
    refine ⟨((List.range n).map fun (i : Nat) => a + (i : ℝ) * ((b - a) / ((n : ℝ) - 1))), ?_, ?_, ?_, ?_, ?_⟩
    · simp only [valuesSpec, hs, List.mapM_cons, List.mapM_nil, hf, blockValues, List.getLast?_concat, if_true,
        List.dropLast_concat, hn, ha, hb, decide_true, linspace]
      rw [if_neg (by simp), if_neg (by simp)]
      simp [bind_ok, pure_ok]
    · simp
    · intro i hi; simp
    · obtain ⟨k, rfl⟩ : ∃ k, n = k + 1 := ⟨n - 1, by omega⟩
      simp [List.range_succ_eq_map]
    · obtain ⟨k, rfl⟩ : ∃ k, n = k + 1 := ⟨n - 1, by omega⟩
      have hk : (k : ℝ) ≠ 0 := by
        have : k ≠ 0 := by omega
        exact_mod_cast this
      simp only [List.range_succ, List.map_append, List.map_cons, List.map_nil, List.getLast?_concat,
        Option.some.injEq]
      have e : ((k + 1 : ℕ) : ℝ) - 1 = k := by push_cast; ring
      rw [e]
      field_simp
      ring

/-- Finding F64: a logarithmic range is never accepted (the module `math` is not imported), and neither is a range
without the number of points, though the step is documented as optional. -/
theorem c63_log_never (L : Lib) (ta tb tn : Str) (h : ∀ t ∈ [ta, tb, tn], ':' ∉ t ∧ '~' ∉ t) :
    valuesSpec L ([':'].intercalate [ta, tb, tn, "log".toList]) = .error .valueError ∧
    valuesSpec L ([':'].intercalate [ta, tb]) = .error .valueError := by
  have h1 := h ta (by simp)
  have h2 := h tb (by simp)
  have h3 := h tn (by simp)
  constructor
  · have hs : ([':'].intercalate [ta, tb, tn, "log".toList]).splitOn '~' =
        [[':'].intercalate [ta, tb, tn, "log".toList]] := by
      apply List.splitOn_eq_singleton
      simp [List.intercalate, h1.2, h2.2, h3.2]
    have hf : ([':'].intercalate [ta, tb, tn, "log".toList]).splitOn ':' = [ta, tb, tn, "log".toList] :=
      List.splitOn_intercalate _ (by simp [h1.1, h2.1, h3.1]) (by simp)
    obtain ⟨e, he⟩ : ∃ e, blockValues L [ta, tb, tn, "log".toList] = .error e := by
      simp only [blockValues]
      cases hg : tn.getLast? with
      | none => exact ⟨.indexError, by simp⟩
      | some c =>
        cases hi : L.int (if c = '+' then tn.dropLast else tn) with
        | none => exact ⟨.valueError, by simp [hi]⟩
        | some n => exact ⟨.nameError, by simp [hi]⟩
    simp only [valuesSpec, hs, List.mapM_cons, hf, he, bind_error]
  · have hs : ([':'].intercalate [ta, tb]).splitOn '~' = [[':'].intercalate [ta, tb]] := by
      apply List.splitOn_eq_singleton
      simp [List.intercalate, h1.2, h2.2]
    have hf : ([':'].intercalate [ta, tb]).splitOn ':' = [ta, tb] :=
      List.splitOn_intercalate _ (by simp [h1.1, h2.1]) (by simp)
    simp only [valuesSpec, hs, List.mapM_cons, hf, blockValues, bind_error]

/-! ### Ranges -/

/-- A range written as `lo:hi` (either may be empty) or as a single value. -/
inductive RangeText where
  | between (lo hi : Str)
  | single (v : Str)

/-- The text, and the texts of the two ends. -/
def RangeText.text : RangeText → Str
  | .between lo hi => lo ++ ':' :: hi
  | .single v => v
def RangeText.lo : RangeText → Str
  | .between lo _ => lo
  | .single v => v
def RangeText.hi : RangeText → Str
  | .between _ hi => hi
  | .single v => v

/-- Plain texts without `:`. -/
def RangeText.Plain (r : RangeText) : Prop := Cmd.Plain r.lo ∧ Cmd.Plain r.hi ∧ ':' ∉ r.lo ∧ ':' ∉ r.hi

theorem CmdLine.rangeParts_text (r : RangeText) (h : r.Plain) : rangeParts r.text = .ok (r.lo, r.hi) := by
  cases r with
  | between lo hi =>
    simp only [rangeParts, RangeText.text, RangeText.lo, RangeText.hi]
    rw [List.splitOn_append_cons_self_of_not_mem (show ':' ∉ lo from h.2.2.1),
      List.splitOn_eq_singleton (show ':' ∉ hi from h.2.2.2)]
  | single v =>
    simp only [rangeParts, RangeText.text, RangeText.lo, RangeText.hi]
    rw [List.splitOn_eq_singleton (show ':' ∉ v from h.2.2.1)]

theorem CmdLine.plain_text (r : RangeText) (h : r.Plain) : Cmd.Plain r.text := by
  cases r with
  | single v => exact h.1
  | between lo hi =>
    obtain ⟨h1, h2, _, _⟩ := h
    refine ⟨?_, ?_, ?_⟩ <;> simp only [RangeText.text, List.mem_append, List.mem_cons, not_or] <;>
      simp only [RangeText.lo, RangeText.hi] at h1 h2
    · exact ⟨h1.1, by decide, h2.1⟩
    · exact ⟨h1.2.1, by decide, h2.2.1⟩
    · exact ⟨h1.2.2, by decide, h2.2.2⟩

/-- Specification: the value given by the last assignment that selects `k` and has a non-empty end `f`, else the
old value. -/
def lastEnd (L : Lib) (f : RangeText → Str) (k : String) : List (Str × RangeText) → Option ℝ → Option ℝ
  | [], old => old
  | a :: as, old => lastEnd L f k as (if L.reMatch a.1 k = true ∧ f a.2 ≠ [] then L.float (f a.2) else old)

/-- Specification: a well-formed range assignment for a model with POIs `names`. -/
def RangeOk (L : Lib) (names : List String) (a : Str × RangeText) : Prop :=
  (∃ k ∈ names, L.reMatch a.1 k = true) ∧ (a.2.lo = [] ∨ ∃ v, L.float a.2.lo = some v) ∧
    (a.2.hi = [] ∨ ∃ v, L.float a.2.hi = some v)

theorem CmdLine.setOn_keys (names : List String) (f : ModelPOI ℝ → ModelPOI ℝ) (d : Dict (ModelPOI ℝ)) :
    (setOn names f d).keys = d.keys := by
  simp [setOn, Dict.keys, List.map_map, Function.comp_def]

theorem CmdLine.setOn_get (names : List String) (f : ModelPOI ℝ → ModelPOI ℝ) (d : Dict (ModelPOI ℝ)) (k : String) :
    (setOn names f d).get? k = (d.get? k).map fun p => if names.contains k then f p else p :=
  Dict.get?_map (fun k p => if names.contains k then f p else p) d k

theorem CmdLine.setRange_ok (L : Lib) (a : Str × RangeText) (pois : Dict (ModelPOI ℝ)) (ha : a.2.Plain)
    (hok : RangeOk L pois.keys a) :
    ∃ q, setRange L [a.1, a.2.text] pois = (q, none) ∧ q.keys = pois.keys ∧
      ∀ k, q.get? k = (pois.get? k).map fun p =>
        { p with min_value := if L.reMatch a.1 k = true ∧ a.2.lo ≠ [] then L.float a.2.lo else p.min_value,
                 max_value := if L.reMatch a.1 k = true ∧ a.2.hi ≠ [] then L.float a.2.hi else p.max_value } := by
  obtain ⟨⟨k0, hk0, hm0⟩, hlo, hhi⟩ := hok
  have hsel : pois.keys.filter (L.reMatch a.1) ≠ [] := by
    intro h
    have : k0 ∈ pois.keys.filter (L.reMatch a.1) := List.mem_filter.2 ⟨hk0, hm0⟩
    rw [h] at this; simp at this
  have hcon : ∀ k, k ∈ pois.keys →
      ((pois.keys.filter (L.reMatch a.1)).contains k = true ↔ L.reMatch a.1 k = true) := by
    intro k hk
    simp [List.contains_iff_mem, hk]
  simp only [setRange, unpack2, hsel, if_false, CmdLine.rangeParts_text a.2 ha]
  have key : ∀ k p, pois.get? k = some p →
      ((pois.keys.filter (L.reMatch a.1)).contains k = true ↔ L.reMatch a.1 k = true) := by
    intro k p hp
    exact hcon k ((Dict.mem_keys_iff _ _).2 ⟨p, hp⟩)
  rcases hlo with h1 | ⟨v, h1⟩ <;> rcases hhi with h2 | ⟨w, h2⟩
  · refine ⟨pois, by simp [h1, h2], rfl, fun k => ?_⟩
    cases pois.get? k <;> simp [h1, h2]
  · by_cases h3 : a.2.hi = []
    · refine ⟨pois, by simp [h1, h3], rfl, fun k => ?_⟩
      cases pois.get? k <;> simp [h1, h3]
    · refine ⟨_, by simp only [h1, if_true, h3, if_false, h2]; rfl, CmdLine.setOn_keys _ _ _, fun k => ?_⟩
      rw [CmdLine.setOn_get]
      cases hp : pois.get? k with
      | none => rfl
      | some p =>
        simp only [Option.map_some, Option.some.injEq]
        by_cases hm : L.reMatch a.1 k = true
        · rw [if_pos ((key k p hp).2 hm)]; simp [hm, h1, h2, h3]
        · rw [if_neg (fun h => hm ((key k p hp).1 h))]; simp [hm]
  · by_cases h3 : a.2.lo = []
    · refine ⟨pois, by simp [h3, h2], rfl, fun k => ?_⟩
      cases pois.get? k <;> simp [h3, h2]
    · refine ⟨_, by simp only [h3, if_false, h1, h2, if_true]; rfl, CmdLine.setOn_keys _ _ _, fun k => ?_⟩
      rw [CmdLine.setOn_get]
      cases hp : pois.get? k with
      | none => rfl
      | some p =>
        simp only [Option.map_some, Option.some.injEq]
        by_cases hm : L.reMatch a.1 k = true
        · rw [if_pos ((key k p hp).2 hm)]; simp [hm, h1, h2, h3]
        · rw [if_neg (fun h => hm ((key k p hp).1 h))]; simp [hm]
  · by_cases h3 : a.2.lo = []
    · by_cases h4 : a.2.hi = []
      · refine ⟨pois, by simp [h3, h4], rfl, fun k => ?_⟩
        cases pois.get? k <;> simp [h3, h4]
      · refine ⟨_, by simp only [h3, if_true, h4, if_false, h2]; rfl, CmdLine.setOn_keys _ _ _, fun k => ?_⟩
        rw [CmdLine.setOn_get]
        cases hp : pois.get? k with
        | none => rfl
        | some p =>
          simp only [Option.map_some, Option.some.injEq]
          by_cases hm : L.reMatch a.1 k = true
          · rw [if_pos ((key k p hp).2 hm)]; simp [hm, h2, h3, h4]
          · rw [if_neg (fun h => hm ((key k p hp).1 h))]; simp [hm]
    · by_cases h4 : a.2.hi = []
      · refine ⟨_, by simp only [h3, if_false, h1, h4, if_true]; rfl, CmdLine.setOn_keys _ _ _, fun k => ?_⟩
        rw [CmdLine.setOn_get]
        cases hp : pois.get? k with
        | none => rfl
        | some p =>
          simp only [Option.map_some, Option.some.injEq]
          by_cases hm : L.reMatch a.1 k = true
          · rw [if_pos ((key k p hp).2 hm)]; simp [hm, h1, h3, h4]
          · rw [if_neg (fun h => hm ((key k p hp).1 h))]; simp [hm]
      · refine ⟨_, by simp only [h3, if_false, h1, h4, h2]; rfl, by
          rw [CmdLine.setOn_keys, CmdLine.setOn_keys], fun k => ?_⟩
        rw [CmdLine.setOn_get, CmdLine.setOn_get]
        cases hp : pois.get? k with
        | none => rfl
        | some p =>
          simp only [Option.map_some, Option.some.injEq]
          by_cases hm : L.reMatch a.1 k = true
          · rw [if_pos ((key k p hp).2 hm), if_pos ((key k p hp).2 hm)]; simp [hm, h1, h2, h3, h4]
          · rw [if_neg (fun h => hm ((key k p hp).1 h)), if_neg (fun h => hm ((key k p hp).1 h))]; simp [hm]

theorem CmdLine.setRanges_ok (L : Lib) (as : List (Str × RangeText)) (pois : Dict (ModelPOI ℝ))
    (hp : ∀ a ∈ as, a.2.Plain) (hok : ∀ a ∈ as, RangeOk L pois.keys a) :
    ∃ q, (∀ rest, setRangesLoop L ((as.map fun a => [a.1, a.2.text]) ++ rest) pois = setRangesLoop L rest q) ∧
      q.keys = pois.keys ∧
      ∀ k, q.get? k = (pois.get? k).map fun p =>
        { p with min_value := lastEnd L RangeText.lo k as p.min_value,
                 max_value := lastEnd L RangeText.hi k as p.max_value } := by
  induction as generalizing pois with
  | nil => exact ⟨pois, fun _ => rfl, rfl, fun k => by cases pois.get? k <;> rfl⟩
  | cons a as ih =>
    obtain ⟨q, hq, hk, hg⟩ := CmdLine.setRange_ok L a pois (hp a (by simp)) (hok a (by simp))
    obtain ⟨q', hq', hk', hg'⟩ := ih q (fun b hb => hp b (by simp [hb]))
      (fun b hb => by rw [hk]; exact hok b (by simp [hb]))
    refine ⟨q', ?_, by rw [hk', hk], fun k => ?_⟩
    · intro rest
      simp only [List.map_cons, List.cons_append, setRangesLoop, hq, hq']
    · rw [hg' k, hg k]
      cases pois.get? k <;> rfl

/-- C63: parameter ranges.  If every assignment selects a POI and every end is empty or a number, then each POI gets
the lower end of the last assignment that selects it with a non-empty lower end, and otherwise keeps its lower
bound; likewise for the upper end; nothing else of the model changes.  A single value gives both ends. -/
theorem c63_setranges (L : Lib) (as : List (Str × RangeText)) (h0 : as ≠ []) (pois : Dict (ModelPOI ℝ))
    (hp : ∀ a ∈ as, Cmd.Plain a.1 ∧ a.2.Plain) (hok : ∀ a ∈ as, RangeOk L pois.keys a) :
    ∃ q, processSetranges L (render (as.map fun a => (a.1, a.2.text))) pois = (q, none) ∧
      q.keys = pois.keys ∧
      ∀ k, q.get? k = (pois.get? k).map fun p =>
        { p with min_value := lastEnd L RangeText.lo k as p.min_value,
                 max_value := lastEnd L RangeText.hi k as p.max_value } := by
  obtain ⟨q, hq, hk, hg⟩ := CmdLine.setRanges_ok L as pois (fun a ha => (hp a ha).2) hok
  refine ⟨q, ?_, hk, hg⟩
  have hq := hq []
  rw [List.append_nil] at hq
  simp only [processSetranges]
  rw [fields_render _ (by simpa using h0) (by
    intro b hb
    obtain ⟨a, ha, rfl⟩ := List.mem_map.1 hb
    exact ⟨(hp a ha).1, CmdLine.plain_text a.2 (hp a ha).2⟩), List.map_map]
  simp only [Function.comp_def, hq, setRangesLoop]

/-- C63: a range assignment that selects nothing raises `ValueError`, but the assignments written before it have
been applied to the model. -/
theorem c63_setranges_error (L : Lib) (as : List (Str × RangeText)) (b : Str × RangeText) (rest : List (Str × RangeText))
    (h0 : as ≠ []) (pois : Dict (ModelPOI ℝ))
    (hp : ∀ a ∈ as ++ b :: rest, Cmd.Plain a.1 ∧ a.2.Plain) (hok : ∀ a ∈ as, RangeOk L pois.keys a)
    (hb : ∀ k ∈ pois.keys, L.reMatch b.1 k = false) :
    processSetranges L (render ((as ++ b :: rest).map fun a => (a.1, a.2.text))) pois =
      ((processSetranges L (render (as.map fun a => (a.1, a.2.text))) pois).1, some .valueError) := by
  obtain ⟨q, hq, hk, hg⟩ := CmdLine.setRanges_ok L as pois (fun a ha => (hp a (by simp [ha])).2) hok
  have hb' : q.keys.filter (L.reMatch b.1) = [] := by
    rw [hk, List.filter_eq_nil_iff]
    intro k hk'
    simp [hb k hk']
  have h1 := hq ([b.1, b.2.text] :: rest.map fun a => [a.1, a.2.text])
  have h2 := hq []
  rw [List.append_nil] at h2
  simp only [processSetranges]
  rw [fields_render _ (by simp) (by
    intro b hb
    obtain ⟨a, ha, rfl⟩ := List.mem_map.1 hb
    exact ⟨(hp a ha).1, CmdLine.plain_text a.2 (hp a ha).2⟩), List.map_map,
    fields_render _ (by simpa using h0) (by
    intro b hb
    obtain ⟨a, ha, rfl⟩ := List.mem_map.1 hb
    exact ⟨(hp a (by simp [ha])).1, CmdLine.plain_text a.2 (hp a (by simp [ha])).2⟩), List.map_map]
  simp only [Function.comp_def, List.map_append, List.map_cons, h1, h2]
  simp [setRangesLoop, setRange, unpack2, hb']

/-! ### New POIs -/

/-- C63: `process_pois` on assignments `name=value:min:max`, where each of the three may be empty: the POIs are the
ones described, in the order written. -/
theorem c63_pois (L : Lib) (known : List String) (check : Bool) (as : List (Str × Str × Str × Str)) (h0 : as ≠ [])
    (hp : ∀ a ∈ as, Cmd.Plain a.1 ∧ ∀ t ∈ [a.2.1, a.2.2.1, a.2.2.2], Cmd.Plain t ∧ ':' ∉ t)
    (hk : check = true → ∀ a ∈ as, String.ofList a.1 ∈ known)
    (hv : ∀ a ∈ as, ∀ t ∈ [a.2.1, a.2.2.1, a.2.2.2], t = [] ∨ ∃ v, L.float t = some v) :
    processPois L known check (render (as.map fun a => (a.1, [':'].intercalate [a.2.1, a.2.2.1, a.2.2.2]))) =
      .ok (as.map fun a =>
        { name := some (String.ofList a.1)
          initial_value := if a.2.1 = [] then none else L.float a.2.1
          min_value := if a.2.2.1 = [] then none else L.float a.2.2.1
          max_value := if a.2.2.2 = [] then none else L.float a.2.2.2 }) := by
  have hopt : ∀ a ∈ as, ∀ t ∈ [a.2.1, a.2.2.1, a.2.2.2],
      optFloat L t = .ok (if t = [] then none else L.float t) := by
    intro a ha t ht
    rcases hv a ha t ht with h | ⟨v, h⟩
    · simp [optFloat, h]
    · by_cases h1 : t = []
      · simp [optFloat, h1]
      · simp [optFloat, h1, h]
  simp only [processPois]
  rw [fields_render _ (by simpa using h0) (by
    intro b hb
    obtain ⟨a, ha, rfl⟩ := List.mem_map.1 hb
    obtain ⟨h1, h2⟩ := hp a ha
    have e1 := (h2 a.2.1 (by simp)).1
    have e2 := (h2 a.2.2.1 (by simp)).1
    have e3 := (h2 a.2.2.2 (by simp)).1
    refine ⟨h1, ?_, ?_, ?_⟩
    · simp [List.intercalate, e1.1, e2.1, e3.1]
    · simp [List.intercalate, e1.2.1, e2.2.1, e3.2.1]
    · simp [List.intercalate, e1.2.2, e2.2.2, e3.2.2]), List.map_map]
  have : (as.map ((fun a => [a.1, a.2]) ∘ fun a : Str × Str × Str × Str =>
      (a.1, [':'].intercalate [a.2.1, a.2.2.1, a.2.2.2]))).mapM (poiOf L known check) =
      .ok (as.map fun a =>
        { name := some (String.ofList a.1)
          initial_value := if a.2.1 = [] then none else L.float a.2.1
          min_value := if a.2.2.1 = [] then none else L.float a.2.2.1
          max_value := if a.2.2.2 = [] then none else L.float a.2.2.2 }) := by
    rw [mapM_ok_iff, List.forall₂_map_left_iff, List.forall₂_map_right_iff, List.forall₂_same]
    intro a ha
    obtain ⟨h1, h2⟩ := hp a ha
    have hs : ([':'].intercalate [a.2.1, a.2.2.1, a.2.2.2]).splitOn ':' = [a.2.1, a.2.2.1, a.2.2.2] :=
      List.splitOn_intercalate _ (fun l hl => (h2 l hl).2) (by simp)
    have hc : ¬ (check = true ∧ String.ofList a.1 ∉ known) := fun h => h.2 (hk h.1 a ha)
    simp only [Function.comp_apply, poiOf, unpack2, bind_ok, if_neg hc, hs,
      hopt a ha a.2.1 (by simp), hopt a ha a.2.2.1 (by simp), hopt a ha a.2.2.2 (by simp), pure_ok]
  rw [this]

/-- C63: with `check_pois`, naming anything that is not a POI of the model is refused, wherever it is written. -/
theorem c63_pois_unknown (L : Lib) (known : List String) (as : List (Str × Str)) (h0 : as ≠ [])
    (hp : ∀ a ∈ as, Cmd.Plain a.1 ∧ Cmd.Plain a.2) (hk : ∃ a ∈ as, String.ofList a.1 ∉ known) :
    processPois L known true (render as) = .error .valueError := by
  obtain ⟨a, ha, hna⟩ := hk
  simp only [processPois]
  rw [fields_render _ h0 hp]
  cases h : (as.map fun a => [a.1, a.2]).mapM (poiOf L known true) with
  | error e => rfl
  | ok l =>
    obtain ⟨b, hb⟩ := mapM_ok_mem h [a.1, a.2] (List.mem_map.2 ⟨a, ha, rfl⟩)
    simp [poiOf, unpack2, hna] at hb

/-- Finding F65: the documented form `name=value:min` is read as `name=:min:max` — the value becomes the lower bound,
the lower bound the upper bound, and there is no initial value — and `name=value` alone is refused. -/
theorem c63_pois_misread (L : Lib) (known : List String) (var tv tm : Str) (v lo : ℝ)
    (hp : Cmd.Plain var ∧ Cmd.Plain tv ∧ Cmd.Plain tm ∧ ':' ∉ tv ∧ ':' ∉ tm)
    (hv : L.float tv = some v) (hm : L.float tm = some lo) (h0 : tv ≠ []) (h1 : tm ≠ []) :
    processPois L known false (render [(var, tv ++ ':' :: tm)]) =
      .ok [{ name := some (String.ofList var), min_value := some v, max_value := some lo, initial_value := none }] ∧
    processPois L known false (render [(var, tv)]) = .error .valueError := by
  obtain ⟨h2, h3, h4, h5, h6⟩ := hp
  constructor
  · simp only [processPois]
    rw [fields_render _ (by simp) (by
      intro a ha
      rw [List.mem_singleton] at ha
      subst ha
      refine ⟨h2, ?_, ?_, ?_⟩
      · simp [h3.1, h4.1]
      · simp [h3.2.1, h4.2.1]
      · simp [h3.2.2, h4.2.2])]
    simp [poiOf, unpack2, List.splitOn_append_cons_self_of_not_mem h5, List.splitOn_eq_singleton h6, optFloat,
      h0, h1, hv, hm]
  · simp only [processPois]
    rw [fields_render _ (by simp) (by simp [h2, h3])]
    simp [poiOf, unpack2, List.splitOn_eq_singleton h5]

/-! ### Examples: the hypotheses can be met -/

/-- Names are matched exactly; three number texts are known. -/
noncomputable def cmdLib : Lib where
  reMatch := fun v n => v = n.toList
  float := fun t => if t = ['0'] then some 0 else if t = ['1'] then some 1 else none
  int := fun t => if t = ['2'] then some 2 else none

/-- `process_setval_list("mu=0:1:2,nu=1|mu=1", ...)` gives `{mu:0,nu:1}`, `{mu:1/2,nu:1}`, `{mu:1}`. -/
example : ∃ ds depth, ∀ fuel ≥ depth,
    processSetvalList cmdLib ⟨["mu", "nu"], [], fun _ v => v⟩ true true fuel "mu=0:1:2,nu=1|mu=1".toList = .ok ds ∧
    (∃ ds' : List (Dict Val), ds = ds'.flatMap (combinations cmdLib)) := by
  obtain ⟨ds, depth, _, h⟩ := c63_list cmdLib ⟨["mu", "nu"], [], fun _ v => v⟩ true true
    [[("mu".toList, "0:1:2".toList), ("nu".toList, "1".toList)], [("mu".toList, "1".toList)]]
    (by simp) (by simp) (by
      intro as has a ha
      simp only [List.mem_cons, List.not_mem_nil, or_false] at has
      rcases has with rfl | rfl
      · simp only [List.mem_cons, List.not_mem_nil, or_false] at ha
        rcases ha with rfl | rfl <;> simp [Plain]
      · simp only [List.mem_cons, List.not_mem_nil, or_false] at ha
        subst ha; simp [Plain])
    (by
      intro as has a ha
      simp only [List.mem_cons, List.not_mem_nil, or_false] at has
      rcases has with rfl | rfl
      · simp only [List.mem_cons, List.not_mem_nil, or_false] at ha
        rcases ha with rfl | rfl
        · exact ⟨"mu", by simp [Selects, cmdLib]⟩
        · exact ⟨"nu", by simp [Selects, cmdLib]⟩
      · simp only [List.mem_cons, List.not_mem_nil, or_false] at ha
        subst ha; exact ⟨"mu", by simp [Selects, cmdLib]⟩)
    (by
      have hr := (c63_range cmdLib ['0'] ['1'] ['2'] (by simp) 0 1 2 (by simp [cmdLib]) (by simp [cmdLib])
        (by simp [cmdLib]) (by simp) (by simp)).1
      obtain ⟨vs, hvs, _⟩ := hr
      intro as has a ha
      simp only [List.mem_cons, List.not_mem_nil, or_false] at has
      rcases has with rfl | rfl
      · simp only [List.mem_cons, List.not_mem_nil, or_false] at ha
        rcases ha with rfl | rfl
        · exact Or.inr ⟨vs, hvs⟩
        · exact Or.inl ⟨1, by simp [cmdLib]⟩
      · simp only [List.mem_cons, List.not_mem_nil, or_false] at ha
        subst ha; exact Or.inl ⟨1, by simp [cmdLib]⟩)
  exact ⟨_, depth, fun fuel hf => ⟨h fuel hf, ds, rfl⟩⟩

/-- Its first list of assignments has exactly the combinations `(0, 1)` and `(1/2, 1)`. -/
example : combinations cmdLib [("mu", .text "0:1:2".toList), ("nu", .num 1)] =
    [[("mu", .num 0), ("nu", .num 1)], [("mu", .num (1/2)), ("nu", .num 1)]] := by
  obtain ⟨vs, hvs, hl, hi⟩ := (c63_range cmdLib ['0'] ['1'] ['2'] (by simp) 0 1 2 (by simp [cmdLib])
    (by simp [cmdLib]) (by simp [cmdLib]) (by simp) (by simp)).1
  have hvs' : valuesSpec cmdLib ['0', ':', '1', ':', '2'] = .ok vs := hvs
  have : vs = [0, 1/2] := by
    apply List.ext_getElem (by simp [hl])
    intro i h1 h2
    rw [hi i h1]
    simp only [List.length_cons, List.length_nil] at h2
    have : i = 0 ∨ i = 1 := by omega
    rcases this with rfl | rfl <;> norm_num
  simp [combinations, valuesOf, hvs', this]

/-- Ranges: `mu=0:1` and then `mu=:0` on a model with the POI `mu`. -/
example : ∃ q, processSetranges cmdLib "mu=0:1,mu=:0".toList [("mu", { name := some "mu" })] = (q, none) ∧
    q.get? "mu" = some { name := some "mu", min_value := some 0, max_value := some 0 } := by
  obtain ⟨q, hq, _, hg⟩ := c63_setranges cmdLib
    [("mu".toList, .between ['0'] ['1']), ("mu".toList, .between [] ['0'])] (by simp)
    [("mu", { name := some "mu" })] (by simp [Plain, RangeText.Plain, RangeText.lo, RangeText.hi])
    (by simp [RangeOk, cmdLib, RangeText.lo, RangeText.hi, Dict.keys])
  refine ⟨q, hq, ?_⟩
  rw [hg]
  simp [Dict.get?, lastEnd, cmdLib, RangeText.lo, RangeText.hi]

end Verif.Props
