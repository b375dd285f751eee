import Verif.Model.CmdLine
import Verif.Lemmas.POIMin
import Verif.Lemmas.Params
import Verif.Lemmas.ExprCtx
/-! Lemmas for the parsing of parameter assignments. -/
namespace Verif
namespace Cmd

/-- The text `var1=val1,var2=val2,...`. -/
def render (as : List (Str × Str)) : Str := [','].intercalate (as.map fun a => a.1 ++ '=' :: a.2)

/-- A text without separators or blanks. -/
def Plain (t : Str) : Prop := ',' ∉ t ∧ '=' ∉ t ∧ ' ' ∉ t

theorem filter_plain {t : Str} (h : Plain t) : t.filter (· ≠ ' ') = t := by
  rw [List.filter_eq_self]
  intro c hc
  simp only [ne_eq, decide_eq_true_eq]
  rintro rfl
  exact h.2.2 hc

theorem fields_render (as : List (Str × Str)) (h0 : as ≠ []) (h : ∀ a ∈ as, Plain a.1 ∧ Plain a.2) :
    fields (render as) = as.map fun a => [a.1, a.2] := by
  unfold fields render
  rw [List.splitOn_intercalate]
  · rw [List.map_map]
    refine List.map_congr_left (fun a ha => ?_)
    obtain ⟨h1, h2⟩ := h a ha
    have hf : (a.1 ++ '=' :: a.2).filter (· ≠ ' ') = a.1 ++ '=' :: a.2 := by
      have e1 := filter_plain h1
      have e2 := filter_plain h2
      rw [List.filter_append, e1, List.filter_cons_of_pos (by decide), e2]
    simp only [Function.comp_apply]
    rw [hf, List.splitOn_append_cons_self_of_not_mem h1.2.1, List.splitOn_eq_singleton h2.2.1]
  · intro l hl
    obtain ⟨a, ha, rfl⟩ := List.mem_map.1 hl
    obtain ⟨h1, h2⟩ := h a ha
    simp [h1.1, h2.1]
  · simpa using h0

theorem filter_splitOn (s : Str) (x : Char) (p : Char → Bool) (hx : p x = true) :
    (s.filter p).splitOn x = (s.splitOn x).map (List.filter p) := by
  induction s with
  | nil => simp
  | cons c t ih =>
    by_cases hc : c = x
    · subst hc
      rw [List.filter_cons_of_pos hx, List.splitOn_cons_eq_if_modifyHead,
        List.splitOn_cons_eq_if_modifyHead]
      simp [ih]
    · rw [List.splitOn_cons_eq_if_modifyHead (x := c) (xs := t)]
      have hcx : (c == x) = false := beq_eq_false_iff_ne.2 hc
      rw [hcx]
      obtain ⟨hd, tl, he⟩ : ∃ hd tl, t.splitOn x = hd :: tl := by
        cases h : t.splitOn x with
        | nil => exact absurd h (by simp)
        | cons hd tl => exact ⟨hd, tl, rfl⟩
      by_cases hp : p c = true
      · rw [List.filter_cons_of_pos hp, List.splitOn_cons_eq_if_modifyHead, hcx, ih, he]
        simp [hp]
      · rw [List.filter_cons_of_neg (by simpa using hp), ih, he]
        simp [hp]

theorem fields_filter (s : Str) : fields (s.filter (· ≠ ' ')) = fields s := by
  unfold fields
  rw [filter_splitOn _ _ _ (by decide), List.map_map]
  refine List.map_congr_left (fun a _ => ?_)
  simp [List.filter_filter]

/-- The parameters selected by an assignment. -/
def selected (L : Lib) (M : Names) (o : Opts) (var : Str) : List String :=
  (if o.match_pois then M.pois.filter (L.reMatch var) else []) ++
    (if o.match_nps then M.nps.filter (L.reMatch var) else [])

theorem assignOne_eq (L : Lib) (M : Names) (o : Opts) (d : Dict Val) (a : Str × Str) :
    assignOne L M o d [a.1, a.2] =
      if selected L M o a.1 = [] ∨ (o.check_val = true ∧ L.float a.2 = none) then .error .valueError
      else .ok (assignLoop M o (if o.match_nps then M.nps.filter (L.reMatch a.1) else []) a.2
        (selected L M o a.1) (L.float a.2) d) := by
  unfold assignOne selected
  simp only [unpack2, bind_ok]
  cases hp : o.match_pois <;> cases hn : o.match_nps <;> cases hc : o.check_val <;>
    by_cases h1 : M.pois.filter (L.reMatch a.1) = [] <;>
    by_cases h2 : M.nps.filter (L.reMatch a.1) = [] <;>
    by_cases h3 : L.float a.2 = none <;>
    simp [h1, h2, h3]

theorem assignLoop_append (M : Names) (o : Opts) (nps : List String) (val : Str) (ps qs : List String)
    (fv : Option ℝ) (d : Dict Val) (h : o.scale_nps = true → ∀ p ∈ ps, p ∉ nps) :
    assignLoop M o nps val (ps ++ qs) fv d =
      assignLoop M o nps val qs fv (assignLoop M o nps val ps fv d) := by
  induction ps generalizing d with
  | nil => rfl
  | cons p ps ih =>
    have hp : (o.scale_nps && nps.contains p) = false := by
      cases hs : o.scale_nps with
      | false => rfl
      | true => simpa using h hs p (by simp)
    simp only [List.cons_append, assignLoop, hp, Bool.false_eq_true, if_false]
    exact ih _ (fun hs q hq => h hs q (by simp [hq]))

theorem assignLoop_get (M : Names) (o : Opts) (nps : List String) (val : Str) (ps : List String)
    (fv : Option ℝ) (d : Dict Val) (h : o.scale_nps = true → ∀ p ∈ ps, p ∉ nps) (k : String) :
    (assignLoop M o nps val ps fv d).get? k =
      if k ∈ ps then some (rawVal fv val) else d.get? k := by
  induction ps generalizing d with
  | nil => rfl
  | cons p ps ih =>
    have hp : (o.scale_nps && nps.contains p) = false := by
      cases hs : o.scale_nps with
      | false => rfl
      | true => simpa using h hs p (by simp)
    simp only [assignLoop, hp, Bool.false_eq_true, if_false]
    rw [ih _ (fun hs q hq => h hs q (by simp [hq])), Dict.get?_set]
    by_cases h1 : k ∈ ps
    · simp [h1]
    · by_cases h2 : p = k
      · simp [h2]
      · simp [h1, h2, Ne.symm h2]

/-- The value a selected parameter `k` gets from an assignment. -/
def valueFor (L : Lib) (M : Names) (o : Opts) (a : Str × Str) (k : String) : Val :=
  rawVal ((L.float a.2).map fun v => if o.scale_nps = true ∧ k ∈ M.nps then M.scaled k v else v) a.2

theorem assignLoop_selected (L : Lib) (M : Names) (o : Opts) (a : Str × Str) (d : Dict Val)
    (hd : o.scale_nps = true → ∀ p ∈ M.pois, p ∉ M.nps)
    (h1 : o.scale_nps = true → (M.nps.filter (L.reMatch a.1)).length ≤ 1) (k : String) :
    (assignLoop M o (if o.match_nps then M.nps.filter (L.reMatch a.1) else []) a.2
        (selected L M o a.1) (L.float a.2) d).get? k =
      if k ∈ selected L M o a.1 then some (valueFor L M o a k) else d.get? k := by
  unfold selected
  set np := if o.match_nps = true then M.nps.filter (L.reMatch a.1) else [] with hnp
  set po := if o.match_pois = true then M.pois.filter (L.reMatch a.1) else [] with hpo
  have hsubn : ∀ q ∈ np, q ∈ M.nps := by
    intro q hq
    rw [hnp] at hq
    split at hq
    · exact (List.mem_filter.1 hq).1
    · simp at hq
  have hsubp : ∀ q ∈ po, q ∈ M.pois := by
    intro q hq
    rw [hpo] at hq
    split at hq
    · exact (List.mem_filter.1 hq).1
    · simp at hq
  have hdis : o.scale_nps = true → ∀ p ∈ po, p ∉ np := fun hs p hp hq => hd hs p (hsubp p hp) (hsubn p hq)
  rw [assignLoop_append _ _ _ _ _ _ _ _ hdis]
  cases hs : o.scale_nps with
  | false =>
    rw [assignLoop_get _ _ _ _ _ _ _ (by simp [hs]), assignLoop_get _ _ _ _ _ _ _ (by simp [hs])]
    simp only [List.mem_append, valueFor, hs, Bool.false_eq_true, false_and, if_false]
    by_cases h2 : k ∈ np <;> by_cases h3 : k ∈ po <;> simp [h2, h3]
  | true =>
    have hlen : np.length ≤ 1 := by
      rw [hnp]; split
      · exact h1 hs
      · simp
    have hpo' : k ∈ po → valueFor L M o a k = rawVal (L.float a.2) a.2 := by
      intro hk
      have := hd hs k (hsubp k hk)
      simp [valueFor, this]
    match hq : np, hlen with
    | [], _ =>
      simp only [assignLoop, List.append_nil]
      rw [assignLoop_get _ _ _ _ _ _ _ (by simp)]
      by_cases h3 : k ∈ po
      · simp [h3, hpo' h3]
      · simp [h3]
    | [q], _ =>
      have hqn : q ∈ M.nps := hsubn q (by simp)
      have hqp : q ∉ po := fun h => hdis hs q h (by simp)
      simp only [assignLoop, hs, List.contains_cons, BEq.rfl, Bool.true_or, Bool.and_true, if_true]
      rw [Dict.get?_set, assignLoop_get _ _ _ _ _ _ _ hdis]
      by_cases h2 : q = k
      · subst h2
        simp only [if_true, List.mem_append, List.mem_singleton, or_true, valueFor, hs, hqn, and_self]
      · by_cases h3 : k ∈ po
        · simp [h2, h3, hpo' h3]
        · simp [h2, h3, Ne.symm h2]

theorem foldlM_assign (L : Lib) (M : Names) (o : Opts) (as : List (Str × Str)) (d : Dict Val)
    (hd : o.scale_nps = true → ∀ p ∈ M.pois, p ∉ M.nps)
    (h1 : ∀ a ∈ as, o.scale_nps = true → (M.nps.filter (L.reMatch a.1)).length ≤ 1)
    (hok : ∀ a ∈ as, selected L M o a.1 ≠ [] ∧ (o.check_val = true → L.float a.2 ≠ none)) :
    ∃ D, (as.map fun a => [a.1, a.2]).foldlM (assignOne L M o) d = .ok D ∧
      ∀ k, D.get? k = ((as.reverse.find? fun a => decide (k ∈ selected L M o a.1)).map
        (valueFor L M o · k)).or (d.get? k) := by
  induction as generalizing d with
  | nil => exact ⟨d, rfl, by simp⟩
  | cons a as ih =>
    have ha := hok a (by simp)
    have hcond : ¬ (selected L M o a.1 = [] ∨ (o.check_val = true ∧ L.float a.2 = none)) := by
      rintro (h | ⟨h, h'⟩)
      · exact ha.1 h
      · exact ha.2 h h'
    obtain ⟨D, hD, hk⟩ := ih (assignLoop M o (if o.match_nps then M.nps.filter (L.reMatch a.1) else []) a.2
        (selected L M o a.1) (L.float a.2) d) (fun b hb => h1 b (by simp [hb]))
        (fun b hb => hok b (by simp [hb]))
    refine ⟨D, ?_, fun k => ?_⟩
    · simp only [List.map_cons, List.foldlM_cons, assignOne_eq, if_neg hcond, bind_ok]
      exact hD
    · rw [hk k, assignLoop_selected L M o a d hd (h1 a (by simp))]
      simp only [List.reverse_cons, List.find?_append, List.find?_singleton]
      cases hf : as.reverse.find? fun a => decide (k ∈ selected L M o a.1) with
      | some b => simp
      | none =>
        by_cases hs : k ∈ selected L M o a.1 <;> simp [hs]

theorem foldlM_assign_error (L : Lib) (M : Names) (o : Opts) (as : List (Str × Str)) (d : Dict Val)
    (h : ∃ a ∈ as, selected L M o a.1 = [] ∨ (o.check_val = true ∧ L.float a.2 = none)) :
    (as.map fun a => [a.1, a.2]).foldlM (assignOne L M o) d = .error .valueError := by
  induction as generalizing d with
  | nil => obtain ⟨a, ha, _⟩ := h; simp at ha
  | cons a as ih =>
    simp only [List.map_cons, List.foldlM_cons, assignOne_eq]
    by_cases hc : selected L M o a.1 = [] ∨ (o.check_val = true ∧ L.float a.2 = none)
    · rw [if_pos hc]; rfl
    · rw [if_neg hc, bind_ok]
      obtain ⟨b, hb, h'⟩ := h
      rcases List.mem_cons.1 hb with rfl | hb
      · exact absurd h' hc
      · exact ih _ ⟨b, hb, h'⟩

/-! ### Expansion of ranges -/

/-- The values a parameter takes. -/
noncomputable def valuesOf (L : Lib) : Val → List ℝ
  | .num v => [v]
  | .text t => match valuesSpec L t with | .ok vs => vs | .error _ => []

/-- Specification: all combinations of values, the first parameter varying slowest. -/
noncomputable def combinations (L : Lib) : Dict Val → List (Dict Val)
  | [] => [[]]
  | (k, v) :: r => (valuesOf L v).flatMap fun x => (combinations L r).map fun D => (k, .num x) :: D

/-- A value that is a number or a well-formed range. -/
def Val.Ok (L : Lib) : Val → Prop
  | .num _ => True
  | .text t => ∃ vs, valuesSpec L t = .ok vs

def Val.isText : Val → Bool
  | .num _ => false
  | .text _ => true

theorem valuesSpec_error {L : Lib} {t : Str} {e : PyErr} (h : valuesSpec L t = .error e) :
    e = .valueError := by
  unfold valuesSpec at h
  split at h
  · cases h
  · cases h; rfl

theorem set_fresh {d : Dict Val} {k : String} {v : Val} (h : k ∉ d.keys) : d.set k v = d ++ [(k, v)] := by
  induction d with
  | nil => rfl
  | cons a d ih =>
    obtain ⟨j, w⟩ := a
    simp only [Dict.keys, List.map_cons, List.mem_cons, not_or] at h
    simp only [Dict.set, List.cons_append]
    rw [if_neg (by exact fun e => h.1 (by simpa using e.symm)), ih h.2]

theorem foldlM_num (L : Lib) (pre : Dict Val) (n0 : Dict Val) (hnum : ∀ kv ∈ pre, kv.2.isText = false)
    (hn : (n0 ++ pre).keys.Nodup) :
    pre.foldlM (expandStep L) ⟨false, [], n0⟩ = .ok ⟨false, [], n0 ++ pre⟩ := by
  induction pre generalizing n0 with
  | nil => simp [pure, Except.pure]
  | cons a pre ih =>
    obtain ⟨k, v⟩ := a
    have hv := hnum (k, v) (by simp)
    cases v with
    | text t => simp [Val.isText] at hv
    | num v =>
      have hk : k ∉ n0.keys := by
        rw [Dict.keys_append] at hn
        have := (List.nodup_append.1 hn).2.2
        intro h
        exact this k h k (by simp [Dict.keys]) rfl
      simp only [List.foldlM_cons, expandStep, Bool.false_eq_true, if_false, bind_ok, set_fresh hk]
      rw [ih _ (fun kv h => hnum kv (by simp [h])) (by simpa [List.append_assoc] using hn)]
      simp

theorem foldlM_rest (L : Lib) (post : Dict Val) (svds : List (Dict Val)) (new : Dict Val)
    (hn : ∀ d ∈ svds, (d ++ post).keys.Nodup) :
    post.foldlM (expandStep L) ⟨true, svds, new⟩ = .ok ⟨true, svds.map (· ++ post), new⟩ := by
  induction post generalizing svds with
  | nil => simp [pure, Except.pure]
  | cons a post ih =>
    obtain ⟨k, v⟩ := a
    have hm : svds.map (fun d => d.set k v) = svds.map (fun d => d ++ [(k, v)]) := by
      refine List.map_congr_left (fun d hd => set_fresh ?_)
      have h := hn d hd
      rw [Dict.keys_append] at h
      have := (List.nodup_append.1 h).2.2
      intro hk
      exact this k hk k (by simp [Dict.keys]) rfl
    simp only [List.foldlM_cons, expandStep, if_true, bind_ok, hm]
    rw [ih _ (by
      intro d hd
      obtain ⟨d', hd', rfl⟩ := List.mem_map.1 hd
      simpa [List.append_assoc] using hn d' hd')]
    simp [List.map_map, Function.comp_def]

theorem split_text (d : Dict Val) : (∀ kv ∈ d, kv.2.isText = false) ∨
    ∃ pre k t post, d = pre ++ (k, .text t) :: post ∧ ∀ kv ∈ pre, kv.2.isText = false := by
  induction d with
  | nil => exact Or.inl (by simp)
  | cons a d ih =>
    obtain ⟨k, v⟩ := a
    cases v with
    | text t => exact Or.inr ⟨[], k, t, d, rfl, by simp⟩
    | num v =>
      rcases ih with h | ⟨pre, k', t, post, rfl, h⟩
      · exact Or.inl (by simpa [Val.isText] using h)
      · exact Or.inr ⟨(k, .num v) :: pre, k', t, post, rfl, by simpa [Val.isText] using h⟩

theorem expandDict_num (L : Lib) (acc : Bool × List (Dict Val)) (d : Dict Val)
    (h : ∀ kv ∈ d, kv.2.isText = false) (hn : d.keys.Nodup) :
    expandDict L acc d = .ok (acc.1, acc.2 ++ [d]) := by
  simp only [expandDict]
  rw [foldlM_num L d [] h (by simpa using hn)]
  simp

theorem expandDict_text (L : Lib) (acc : Bool × List (Dict Val)) (pre post : Dict Val) (k : String) (t : Str)
    (h : ∀ kv ∈ pre, kv.2.isText = false) (hn : (pre ++ (k, .text t) :: post).keys.Nodup)
    (vs : List ℝ) (hv : valuesSpec L t = .ok vs) :
    expandDict L acc (pre ++ (k, .text t) :: post) =
      .ok (true, acc.2 ++ vs.map fun v => pre ++ (k, .num v) :: post) := by
  have hn2 : (pre ++ [(k, Val.num 0)] ++ post).keys.Nodup := by
    simpa [Dict.keys] using hn
  have hn1 : pre.keys.Nodup := by
    rw [Dict.keys_append, List.nodup_append] at hn
    exact hn.1
  have hk : k ∉ pre.keys := by
    rw [Dict.keys_append, List.nodup_append] at hn
    intro hk
    exact hn.2.2 k hk k (by simp [Dict.keys]) rfl
  simp only [expandDict, List.foldlM_append]
  rw [foldlM_num L pre [] h (by simpa using hn1)]
  simp only [List.nil_append, bind_ok, List.foldlM_cons, expandStep, Bool.false_eq_true, if_false, hv, pure_ok]
  rw [foldlM_rest L post _ _ (by
    intro d hd
    obtain ⟨v, _, rfl⟩ := List.mem_map.1 hd
    rw [set_fresh hk]
    simpa [Dict.keys] using hn2)]
  simp [List.map_map, Function.comp_def, set_fresh hk]

theorem combinations_num (L : Lib) (d : Dict Val) (h : ∀ kv ∈ d, kv.2.isText = false) :
    combinations L d = [d] := by
  induction d with
  | nil => rfl
  | cons a d ih =>
    obtain ⟨k, v⟩ := a
    have hv := h (k, v) (by simp)
    cases v with
    | text t => simp [Val.isText] at hv
    | num v => simp [combinations, valuesOf, ih (fun kv hkv => h kv (by simp [hkv]))]

theorem combinations_text (L : Lib) (pre post : Dict Val) (k : String) (t : Str) (vs : List ℝ)
    (hv : valuesSpec L t = .ok vs) (h : ∀ kv ∈ pre, kv.2.isText = false) :
    combinations L (pre ++ (k, .text t) :: post) =
      (vs.map fun v => pre ++ (k, .num v) :: post).flatMap (combinations L) := by
  induction pre with
  | nil => simp [combinations, valuesOf, hv, List.flatMap_map]
  | cons a pre ih =>
    obtain ⟨j, w⟩ := a
    have hw := h (j, w) (by simp)
    cases w with
    | text t => simp [Val.isText] at hw
    | num w =>
      simp only [List.cons_append, combinations, valuesOf, List.flatMap_cons, List.flatMap_nil,
        List.append_nil, List.flatMap_map]
      rw [ih (fun kv hkv => h kv (by simp [hkv]))]
      simp only [List.map_flatMap, List.flatMap_map]

theorem foldlM_expand (L : Lib) (ds : List (Dict Val)) (acc : Bool × List (Dict Val))
    (hn : ∀ d ∈ ds, d.keys.Nodup) (hok : ∀ d ∈ ds, ∀ kv ∈ d, kv.2.Ok L) (n : Nat)
    (hc : ∀ d ∈ ds, d.countP (fun kv => kv.2.isText) ≤ n + 1) :
    ∃ b new, ds.foldlM (expandDict L) acc = .ok (b, acc.2 ++ new) ∧
      (b = false → acc.1 = false ∧ ∀ d ∈ ds, ∀ kv ∈ d, kv.2.isText = false) ∧
      new.flatMap (combinations L) = ds.flatMap (combinations L) ∧
      (b = false → new = ds) ∧
      (∀ d ∈ new, d.keys.Nodup) ∧ (∀ d ∈ new, ∀ kv ∈ d, kv.2.Ok L) ∧
      ∀ d ∈ new, d.countP (fun kv => kv.2.isText) ≤ n := by
  induction ds generalizing acc with
  | nil => exact ⟨acc.1, [], by simp [pure, Except.pure], fun h => ⟨h, by simp⟩, rfl, fun _ => rfl, by simp, by simp, by simp⟩
  | cons d ds ih =>
    rcases split_text d with h | ⟨pre, k, t, post, rfl, h⟩
    · obtain ⟨b, new, e, h1, h2, h3, h4, h5, h6⟩ := ih (acc.1, acc.2 ++ [d]) (fun d' hd' => hn d' (by simp [hd']))
        (fun d' hd' => hok d' (by simp [hd'])) (fun d' hd' => hc d' (by simp [hd']))
      refine ⟨b, d :: new, ?_, ?_, ?_, ?_, ?_, ?_, ?_⟩
      · simp only [List.foldlM_cons, expandDict_num L acc d h (hn d (by simp)), bind_ok, e]
        simp
      · intro hb
        obtain ⟨ha, hb'⟩ := h1 hb
        refine ⟨ha, fun d' hd' => ?_⟩
        rcases List.mem_cons.1 hd' with rfl | hd'
        · exact h
        · exact hb' d' hd'
      · simp [h2]
      · intro hb; rw [h3 hb]
      · intro d' hd'
        rcases List.mem_cons.1 hd' with rfl | hd'
        · exact hn _ (by simp)
        · exact h4 d' hd'
      · intro d' hd'
        rcases List.mem_cons.1 hd' with rfl | hd'
        · exact hok _ (by simp)
        · exact h5 d' hd'
      · intro d' hd'
        rcases List.mem_cons.1 hd' with rfl | hd'
        · rw [List.countP_eq_zero.2 (fun kv hkv => by simp [h kv hkv])]; omega
        · exact h6 d' hd'
    · obtain ⟨vs, hv⟩ := hok (pre ++ (k, .text t) :: post) (List.mem_cons_self ..) (k, .text t) (by simp)
      obtain ⟨b, new, e, h1, h2, h3, h4, h5, h6⟩ := ih (true, acc.2 ++ vs.map fun v => pre ++ (k, .num v) :: post)
        (fun d' hd' => hn d' (by simp [hd']))
        (fun d' hd' => hok d' (by simp [hd'])) (fun d' hd' => hc d' (by simp [hd']))
      have hb : b = true := by
        cases hb : b with
        | true => rfl
        | false => exact absurd (h1 hb).1 (by simp)
      refine ⟨b, (vs.map fun v => pre ++ (k, .num v) :: post) ++ new, ?_, ?_, ?_, ?_, ?_, ?_, ?_⟩
      · simp only [List.foldlM_cons, expandDict_text L acc pre post k t h (hn _ (by simp)) vs hv, bind_ok, e]
        simp
      · intro hb'; rw [hb] at hb'; cases hb'
      · rw [List.flatMap_append, List.flatMap_cons, h2, combinations_text L pre post k t vs hv h]
      · intro hb'; rw [hb] at hb'; cases hb'
      · intro d' hd'
        rcases List.mem_append.1 hd' with hd' | hd'
        · obtain ⟨v, _, rfl⟩ := List.mem_map.1 hd'
          have := hn _ (List.mem_cons_self ..)
          simpa [Dict.keys] using this
        · exact h4 d' hd'
      · intro d' hd'
        rcases List.mem_append.1 hd' with hd' | hd'
        · obtain ⟨v, _, rfl⟩ := List.mem_map.1 hd'
          intro kv hkv
          rcases List.mem_append.1 hkv with hkv | hkv
          · exact hok _ (List.mem_cons_self ..) kv (by simp [hkv])
          · rcases List.mem_cons.1 hkv with rfl | hkv
            · trivial
            · exact hok _ (List.mem_cons_self ..) kv (by simp [hkv])
        · exact h5 d' hd'
      · intro d' hd'
        rcases List.mem_append.1 hd' with hd' | hd'
        · obtain ⟨v, _, rfl⟩ := List.mem_map.1 hd'
          have := hc _ (List.mem_cons_self ..)
          simp only [List.countP_append, List.countP_cons, Val.isText] at this ⊢
          simp at this ⊢
          omega
        · exact h6 d' hd'

theorem expandDicts_ok (L : Lib) (n : Nat) (ds : List (Dict Val))
    (hn : ∀ d ∈ ds, d.keys.Nodup) (hok : ∀ d ∈ ds, ∀ kv ∈ d, kv.2.Ok L)
    (hc : ∀ d ∈ ds, d.countP (fun kv => kv.2.isText) ≤ n) (fuel : Nat) (hf : n < fuel) :
    expandDicts L fuel ds = .ok (ds.flatMap (combinations L)) := by
  induction n generalizing ds fuel with
  | zero =>
    obtain ⟨fuel, rfl⟩ : ∃ k, fuel = k + 1 := ⟨fuel - 1, by omega⟩
    have hnum : ∀ d ∈ ds, ∀ kv ∈ d, kv.2.isText = false := by
      intro d hd kv hkv
      have := List.countP_eq_zero.1 (Nat.le_zero.1 (hc d hd)) kv hkv
      simpa using this
    obtain ⟨b, new, e, h1, h2, h3, h4, h5, h6⟩ := foldlM_expand L ds (false, []) hn hok 0
      (fun d hd => (hc d hd).trans (by omega))
    have hb : b = false := by
      clear h1 h2 h3 h4 h5 h6
      have : ∀ (l : List (Dict Val)) (acc : Bool × List (Dict Val)), (∀ d ∈ l, d ∈ ds) → acc.1 = false →
          ∀ r, l.foldlM (expandDict L) acc = .ok r → r.1 = false := by
        intro l
        induction l with
        | nil => intro acc _ ha r hr; cases hr; exact ha
        | cons d l ih =>
          intro acc hl ha r hr
          simp only [List.foldlM_cons, expandDict_num L acc d (hnum d (hl d (by simp))) (hn d (hl d (by simp))),
            bind_ok] at hr
          exact ih _ (fun d' hd' => hl d' (by simp [hd'])) (by simpa using ha) r hr
      exact this ds (false, []) (fun _ h => h) rfl _ e
    simp only [expandDicts, e, bind_ok, hb, Bool.false_eq_true, if_false, List.nil_append, pure_ok]
    rw [h3 hb]
    congr 1
    clear * - hnum
    induction ds with
    | nil => rfl
    | cons d ds ih =>
      rw [List.flatMap_cons, combinations_num L d (hnum d (by simp)), ← ih (fun d' hd' => hnum d' (by simp [hd']))]
      rfl
  | succ n ih =>
    obtain ⟨fuel, rfl⟩ : ∃ k, fuel = k + 1 := ⟨fuel - 1, by omega⟩
    obtain ⟨b, new, e, h1, h2, h3, h4, h5, h6⟩ := foldlM_expand L ds (false, []) hn hok n hc
    simp only [expandDicts, e, bind_ok, List.nil_append]
    cases b with
    | true => rw [if_pos rfl, ih new h4 h5 h6 fuel (by omega), h2]
    | false =>
      rw [if_neg (by simp), pure_ok, ← h2]
      congr 1
      have hnum := (h1 rfl).2
      rw [h3 rfl]
      clear * - hnum
      induction ds with
      | nil => rfl
      | cons d ds ih =>
        rw [List.flatMap_cons, combinations_num L d (hnum d (by simp)), ← ih (fun d' hd' => hnum d' (by simp [hd']))]
        rfl

theorem mem_combinations (L : Lib) (d D : Dict Val) :
    D ∈ combinations L d ↔ List.Forall₂ (fun kv kv' => kv'.1 = kv.1 ∧
      ∃ x ∈ valuesOf L kv.2, kv'.2 = Val.num x) d D := by
  induction d generalizing D with
  | nil => simp [combinations]
  | cons a d ih =>
    obtain ⟨k, v⟩ := a
    simp only [combinations, List.mem_flatMap, List.mem_map, List.forall₂_cons_left_iff]
    constructor
    · rintro ⟨x, hx, D', hD', rfl⟩
      exact ⟨(k, .num x), D', ⟨rfl, x, hx, rfl⟩, (ih D').1 hD', rfl⟩
    · rintro ⟨⟨k', v'⟩, D', ⟨hk, x, hx, hv⟩, hD', rfl⟩
      simp only at hk hv
      subst hk hv
      exact ⟨x, hx, D', (ih D').2 hD', rfl⟩

end Cmd
end Verif
