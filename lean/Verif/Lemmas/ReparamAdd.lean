import Verif.Props.Reparam
import Verif.Model.ReparamAll
/-! Lemmas on `remove_pois` when some of the POIs have been replaced by expressions -/
namespace Verif
namespace Expr

theorem keys_set_mem {V : Type} (d : Dict V) (k : String) (v : V) (h : k ∈ d.keys) : (d.set k v).keys = d.keys := by
  rw [Dict.keys_set, if_pos h]

/-- The keys are `K` and no expression is a parameter. -/
def Plain (K : List String) (S : Dict Expr) : Prop := Dict.keys S = K ∧ ∀ nm, S.get? nm ≠ some .single

/-- Two calls that do the same. -/
def SameCall (K : List String) (rec rec' : Dict Expr → String → Except PyErr (Dict Expr × Option ℝ)) : Prop :=
  ∀ S nm, Plain K S → rec S nm = rec' S nm ∧ ∀ r, rec S nm = .ok r → Plain K r.1

theorem replaceLoop_same {K : List String} {rec rec' : Dict Expr → String → Except PyErr (Dict Expr × Option ℝ)}
    (h : SameCall K rec rec') (cs : Dict ℝ) (S : Dict Expr) (hS : Plain K S) :
    replaceLoop rec S cs = replaceLoop rec' S cs ∧ ∀ o, replaceLoop rec S cs = .ok o → Plain K o.state := by
  induction cs generalizing S with
  | nil =>
    refine ⟨rfl, ?_⟩
    intro o ho
    simp only [replaceLoop, Except.ok.injEq] at ho
    subst ho
    exact hS
  | cons a cs ih =>
    obtain ⟨k, c⟩ := a
    obtain ⟨h1, h2⟩ := h S k hS
    simp only [replaceLoop]
    rw [← h1]
    cases hr : rec S k with
    | error e =>
      simp
    | ok r =>
      have hk := h2 r hr
      obtain ⟨i1, i2⟩ := ih r.1 hk
      simp only [bind_ok]
      rw [← i1]
      refine ⟨rfl, ?_⟩
      intro o ho
      obtain ⟨o', ho', ho⟩ := bind_eq_ok.1 ho
      have := i2 o' ho'
      cases hr2 : r.2 <;> rw [hr2] at ho <;> simp only [pure_ok, Except.ok.injEq] at ho <;> subst ho <;> exact this

theorem replace_same {params : List String} {name : String} {v v' : Option ℝ} {K : List String} (hn : name ∈ K)
    (fuel : Nat) : SameCall K (replace params name v fuel) (replace params name v' fuel) := by
  induction fuel with
  | zero => intro S nm _; exact ⟨rfl, by intro r hr; simp [replace] at hr⟩
  | succ fuel ih =>
    intro S nm hS
    simp only [replace, find]
    cases hg : S.get? nm with
    | none =>
      have hne : nm ≠ name := by
        rintro rfl
        rw [Dict.get?_eq_none_iff, hS.1] at hg
        exact hg hn
      by_cases hp : nm ∈ params
      · simp only [if_pos hp, bind_ok, if_neg hne, true_and]
        intro r hr
        simp only [pure_ok, Except.ok.injEq] at hr
        subst hr; exact hS
      · simp only [if_neg hp, bind_error, true_and]
        intro r hr; cases hr
    | some e =>
      have hmem : nm ∈ Dict.keys S := (Dict.mem_keys_iff _ _).2 ⟨e, hg⟩
      simp only [bind_ok]
      cases e with
      | number w =>
        simp only [true_and]
        intro r hr
        simp only [pure_ok, Except.ok.injEq] at hr
        subst hr; exact hS
      | single =>
        exact absurd hg (hS.2 nm)
      | linear nom cs =>
        obtain ⟨h1, h2⟩ := replaceLoop_same ih cs S hS
        dsimp only
        rw [← h1]
        refine ⟨rfl, ?_⟩
        intro r hr
        obtain ⟨o, ho, hr⟩ := bind_eq_ok.1 hr
        simp only [pure_ok, Except.ok.injEq] at hr
        subst hr
        have := h2 o ho
        simp only [replaceLinear]
        refine ⟨by rw [keys_set_mem _ _ _ (by rw [this.1, ← hS.1]; exact hmem), this.1], ?_⟩
        intro j
        rw [Dict.get?_set]
        by_cases hj : nm = j
        · rw [if_pos hj]; simp
        · rw [if_neg hj]; exact this.2 j
      | prodRatio pre num den =>
        obtain ⟨h1, h2⟩ := replaceLoop_same ih (num.map fun k => (k, 1)) S hS
        simp only [replaceProd]
        rw [← h1]
        cases ho : replaceLoop (replace params name v fuel) S (num.map fun k => (k, 1)) with
        | error e => simp
        | ok o1 =>
          have hk1 := h2 o1 ho
          simp only [bind_ok]
          obtain ⟨h3, h4⟩ := replaceLoop_same ih (den.map fun k => (k, 1)) o1.state hk1
          rw [← h3]
          refine ⟨rfl, ?_⟩
          intro r hr
          by_cases hc : o1.removed ≠ []
          · rw [if_pos hc] at hr; simp at hr
          rw [if_neg hc] at hr
          obtain ⟨o2, ho2, hr⟩ := bind_eq_ok.1 hr
          by_cases hc2 : ∃ p ∈ o2.removed, p.2 = 0
          · rw [if_pos hc2] at hr; simp at hr
          rw [if_neg hc2] at hr
          by_cases hc3 : o2.removed ≠ []
          · rw [if_pos hc3] at hr; simp at hr
          rw [if_neg hc3] at hr
          simp only [pure_ok, Except.ok.injEq] at hr
          subst hr
          exact h4 o2 ho2
      | exponential e =>
        obtain ⟨h1, h2⟩ := ih S e hS
        dsimp only
        rw [← h1]
        refine ⟨rfl, ?_⟩
        intro r hr
        obtain ⟨o, ho, hr⟩ := bind_eq_ok.1 hr
        simp only [pure_ok, Except.ok.injEq] at hr
        subst hr
        exact h2 o ho
end Expr

namespace PoiModel
open Expr

theorem replaceAll_same {params : List String} {name : String} {v v' : Option ℝ} {K : List String} (hn : name ∈ K)
    (fuel : Nat) (l : List String) (S : Dict Expr) (hS : Plain K S) :
    replaceAll fuel params name v S l = replaceAll fuel params name v' S l := by
  induction l generalizing S with
  | nil => rfl
  | cons nm l ih =>
    obtain ⟨h1, h2⟩ := replace_same (params := params) (v := v) (v' := v') hn fuel S nm hS
    simp only [replaceAll]
    rw [← h1]
    cases hr : replace params name v fuel S nm with
    | error e => simp
    | ok r => simp only [bind_ok, ih r.1 (h2 r hr)]

theorem plain_of_ranked {rank : String → Nat} {S : Dict Expr} (h : Ranked rank S) : Plain (Dict.keys S) S :=
  ⟨rfl, fun nm hg => absurd (h nm _ hg nm (by simp [deps])) (lt_irrefl _)⟩

/-- What is known about the expressions in an intermediate state of `remove_pois`: `gone` are the removed POIs that are not
replaced by an expression, `T` the expressions that have become numbers. -/
structure InvE (env : String → ℝ) (m0 m : PoiModel) (gone T : List String) : Prop where
  nps : m.nps = m0.nps
  norms : m.norms = m0.norms
  keys : m.exprs.keys = m0.exprs.keys
  solves : Solves env m.exprs
  deps : ∀ nm e', m.exprs.get? nm = some e' →
    ∃ e, m0.exprs.get? nm = some e ∧ ∀ k ∈ e'.deps nm, k ∈ e.deps nm
  clean : ∀ nm e', m.exprs.get? nm = some e' → nm ∉ T → ∀ k ∈ e'.deps nm, k ∉ gone ∧ k ∉ T
  normsFree : ∀ k ∈ gone, k ∉ m0.norms

theorem removePoi_invE {env : String → ℝ} {m0 m : PoiModel} {gone T : List String}
    {rank : String → Nat} (I : InvE env m0 m gone T) (hR : Ranked rank m.exprs) (fuel : Nat)
    (values : Dict ℝ) (name : String) (hval : name ∉ m.exprs.keys → ∀ v, values.get? name = some v → env name = v)
    (r : PoiModel × Dict ℝ) (h : removePoi fuel values m name = .ok r) :
    InvE env m0 r.1 (if name ∈ m.exprs.keys then gone else name :: gone) (T ++ Dict.keys r.2) ∧ Ranked rank r.1.exprs ∧
      r.1.pois = m.pois.erase name := by
  by_cases hin : name ∈ m.exprs.keys
  · rw [if_pos hin]
    simp only [removePoi, hin, not_true_eq_false, if_false, pure_ok, bind_ok] at h
    obtain ⟨out, hout, h⟩ := bind_eq_ok.1 h
    by_cases hp : name ∉ m.pois
    · rw [if_pos hp] at h; simp at h
    rw [if_neg hp] at h
    simp only [pure_ok, Except.ok.injEq] at h
    subst h
    rw [replaceAll_same (v' := some (env name)) hin fuel _ _ (plain_of_ranked hR)] at hout
    obtain ⟨s1, s2, s3, s4, s5⟩ := replaceAll_spec (fun v hv => Option.some.inj hv) fuel _ _ out hR I.solves hout
    refine ⟨⟨I.nps, I.norms, s1.keys.trans I.keys, s1.solves, ?_, ?_, I.normsFree⟩, hR.step s1, rfl⟩
    · intro nm e' he'
      obtain ⟨e, he, hd⟩ := s1.deps nm e' he'
      obtain ⟨e0, he0, hd0⟩ := I.deps nm e he
      exact ⟨e0, he0, fun k hk => hd0 k (hd k hk)⟩
    · intro nm e' he' hT k hk
      simp only [List.mem_append, not_or] at hT
      obtain ⟨e, he, hd⟩ := s1.deps nm e' he'
      obtain ⟨g1, g2⟩ := I.clean nm e he hT.1 k (hd k hk)
      have hnm : nm ∈ m.exprs.keys := (Dict.mem_keys_iff _ _).2 ⟨e, he⟩
      have ht := (s2 nm hnm).resolve_left hT.2 e' he' k hk
      refine ⟨g1, ?_⟩
      simp only [List.mem_append, not_or]
      exact ⟨g2, fun hk2 => ht (s3 k hk2).2⟩
  · rw [if_neg hin]
    simp only [removePoi, hin, not_false_eq_true, if_true] at h
    obtain ⟨u, hu, h⟩ := bind_eq_ok.1 h
    obtain ⟨out, hout, h⟩ := bind_eq_ok.1 h
    by_cases hp : name ∉ m.pois
    · rw [if_pos hp] at h; simp at h
    rw [if_neg hp] at h
    simp only [pure_ok, Except.ok.injEq] at h
    subst h
    obtain ⟨s1, s2, s3, s4, s5⟩ := replaceAll_spec (hval hin) fuel _ _ out hR I.solves hout
    refine ⟨⟨I.nps, I.norms, s1.keys.trans I.keys, s1.solves, ?_, ?_, ?_⟩, hR.step s1, rfl⟩
    · intro nm e' he'
      obtain ⟨e, he, hd⟩ := s1.deps nm e' he'
      obtain ⟨e0, he0, hd0⟩ := I.deps nm e he
      exact ⟨e0, he0, fun k hk => hd0 k (hd k hk)⟩
    · intro nm e' he' hT k hk
      simp only [List.mem_append, not_or] at hT
      obtain ⟨e, he, hd⟩ := s1.deps nm e' he'
      obtain ⟨g1, g2⟩ := I.clean nm e he hT.1 k (hd k hk)
      have hnm : nm ∈ m.exprs.keys := (Dict.mem_keys_iff _ _).2 ⟨e, he⟩
      have ht := (s2 nm hnm).resolve_left hT.2 e' he' k hk
      constructor
      · simp only [List.mem_cons, not_or]
        refine ⟨?_, g1⟩
        rintro rfl
        exact ht (.par ((Dict.get?_eq_none_iff _ _).2 hin))
      · simp only [List.mem_append, not_or]
        exact ⟨g2, fun hk2 => ht (s3 k hk2).2⟩
    · intro k hk
      rcases List.mem_cons.1 hk with rfl | hk
      · rw [← I.norms]; exact removeFromNorms_ok hu
      · exact I.normsFree k hk

theorem removePoiLoop_invE {env : String → ℝ} {m0 : PoiModel} {rank : String → Nat} (fuel : Nat)
    (values : Dict ℝ) (names : List String)
    (hval : ∀ k ∈ names, k ∉ m0.exprs.keys → ∀ v, values.get? k = some v → env k = v)
    (m : PoiModel) (gone T : List String) (I : InvE env m0 m gone T) (hR : Ranked rank m.exprs)
    (hnd : m.pois.Nodup) (r : PoiModel × Dict ℝ) (h : removePoiLoop fuel values m names = .ok r) :
    ∃ gone', (∀ k, k ∈ gone' ↔ k ∈ gone ∨ (k ∈ names ∧ k ∉ m0.exprs.keys)) ∧ InvE env m0 r.1 gone' (T ++ Dict.keys r.2) ∧
      r.1.pois = m.pois.filter (fun k => k ∉ names) := by
  induction names generalizing m gone T r with
  | nil =>
    simp only [removePoiLoop, Except.ok.injEq] at h
    subst h
    exact ⟨gone, by simp, by simpa [Dict.keys] using I, by simp⟩
  | cons nm names ih =>
    simp only [removePoiLoop] at h
    obtain ⟨r1, hr1, h⟩ := bind_eq_ok.1 h
    obtain ⟨o, ho, h⟩ := bind_eq_ok.1 h
    simp only [pure_ok, Except.ok.injEq] at h
    subst h
    obtain ⟨I1, R1, p1⟩ := removePoi_invE I hR fuel values nm (by rw [I.keys]; exact hval nm (by simp)) r1 hr1
    obtain ⟨gone', g1, g2, g3⟩ := ih (fun k hk => hval k (by simp [hk])) r1.1 _ _ I1 R1 (by rw [p1]; exact hnd.erase _) o ho
    refine ⟨gone', ?_, ?_, ?_⟩
    · intro k
      rw [g1, I.keys]
      by_cases hin : nm ∈ m0.exprs.keys
      · rw [if_pos hin]
        simp only [List.mem_cons]
        constructor
        · rintro (h | h)
          · exact Or.inl h
          · exact Or.inr ⟨Or.inr h.1, h.2⟩
        · rintro (h | ⟨rfl | h, h2⟩)
          · exact Or.inl h
          · exact absurd hin h2
          · exact Or.inr ⟨h, h2⟩
      · rw [if_neg hin]
        simp only [List.mem_cons]
        constructor
        · rintro ((rfl | h) | h)
          · exact Or.inr ⟨Or.inl rfl, hin⟩
          · exact Or.inl h
          · exact Or.inr ⟨Or.inr h.1, h.2⟩
        · rintro (h | ⟨rfl | h, h2⟩)
          · exact Or.inl (Or.inr h)
          · exact Or.inl (Or.inl rfl)
          · exact Or.inr ⟨h, h2⟩
    · simp only; rw [Dict.keys_append, ← List.append_assoc]; exact g2
    · simp only
      rw [g3, p1, hnd.erase_eq_filter, List.filter_filter]
      apply List.filter_congr
      intro k _
      by_cases hk : k = nm <;> simp [hk]

/-- The POIs that are not hidden by an expression. -/
def seen (m : PoiModel) : List String := m.pois.filter fun k => k ∉ m.exprs.keys

/-- Every expression refers to what comes before. -/
def Ordered (base : List String) (es : Dict Expr) : Prop :=
  ∀ pre nm e post, es = pre ++ (nm, e) :: post → ∀ k ∈ e.deps nm, k ∈ base ++ Dict.keys pre

theorem ordered_ranked {base : List String} {es : Dict Expr} (h : Ordered base es) (hn : (base ++ Dict.keys es).Nodup) :
    Ranked (fun k => (base ++ Dict.keys es).idxOf k) es := by
  intro nm e he k hk
  obtain ⟨pre, post, hsplit⟩ := List.append_of_mem ((Dict.get?_eq_some_iff _ (List.nodup_append.1 hn).2.1 _ _).1 he)
  have hkp := h pre nm e post hsplit k hk
  refine Props.idxOf_append_lt (pre := base ++ Dict.keys pre) (post := Dict.keys post) ?_ hn hkp
  have : Dict.keys es = Dict.keys pre ++ nm :: Dict.keys post := by
    rw [hsplit, Dict.keys_append]; rfl
  rw [this]; simp

/-- `remove_pois` when the removed POIs may be hidden by expressions: all quantities of the result have their values. -/
theorem removePois_eval {fuel : Nat} {m m' : PoiModel} {names : List String} {values : Dict ℝ} {env : String → ℝ}
    (hpn : m.pois.Nodup) (hN : (m.seen ++ Dict.keys m.nps ++ Dict.keys m.exprs).Nodup)
    (hhid : ∀ k ∈ m.pois, k ∈ m.exprs.keys → k ∈ names)
    (hO : Ordered (m.seen ++ Dict.keys m.nps) m.exprs) (hS : Solves env m.exprs)
    (hnp : ∀ kv ∈ m.nps, env kv.1 = kv.2)
    (hval : ∀ k ∈ names, k ∉ m.exprs.keys → ∀ v, values.get? k = some v → env k = v)
    (h : m.removePois fuel names values = .ok m') :
    m'.pois = m.pois.filter (fun k => k ∉ names) ∧ m'.nps = m.nps ∧ m'.norms = m.norms ∧
    (∀ k ∈ m'.exprs.keys, k ∈ m.exprs.keys) ∧
    ∃ d', m'.realVals env = .ok d' ∧ d'.keys = m'.pois ++ Dict.keys m.nps ++ Dict.keys m'.exprs ∧
      (∀ k ∈ d'.keys, d'.get? k = some (env k)) ∧
      ∀ k ∈ m.norms, k ∈ m.seen ++ Dict.keys m.nps ++ Dict.keys m.exprs → k ∈ d'.keys := by
  simp only [removePois] at h
  by_cases hb : ∃ nm ∈ names, nm ∉ m.pois
  · rw [if_pos hb] at h; simp at h
  rw [if_neg hb] at h
  push Not at hb
  obtain ⟨r, hr, h⟩ := bind_eq_ok.1 h
  have hxn : (Dict.keys m.exprs).Nodup := (List.nodup_append.1 hN).2.1
  have I0 : InvE env m m [] [] :=
    ⟨rfl, rfl, rfl, hS, fun _ e h => ⟨e, h, fun _ h => h⟩, by simp, by simp⟩
  obtain ⟨gone, g1, I, hpois⟩ := removePoiLoop_invE fuel values names hval m [] [] I0 (ordered_ranked hO hN) hpn r hr
  have g1 : ∀ k, k ∈ gone ↔ k ∈ names ∧ k ∉ m.exprs.keys := by intro k; rw [g1]; simp
  obtain ⟨e1, e2, e3⟩ := removeExprs_ok _ _ _ _ h
  subst e1
  have hTk : ∀ k ∈ Dict.keys r.2, k ∉ m.norms := by rw [← I.norms]; exact e2
  have hfk : ∀ k, k ∈ Dict.keys (r.1.exprs.filter (fun p => decide (p.1 ∉ Dict.keys r.2))) ↔
      k ∈ Dict.keys m.exprs ∧ k ∉ Dict.keys r.2 := by
    intro k
    rw [← I.keys]
    simp only [Dict.keys, List.mem_map, List.mem_filter, decide_eq_true_eq]
    constructor
    · rintro ⟨a, ⟨h1, h2⟩, rfl⟩; exact ⟨⟨a, h1, rfl⟩, h2⟩
    · rintro ⟨⟨a, h1, rfl⟩, h2⟩; exact ⟨a, ⟨h1, h2⟩, rfl⟩
  have hrx : (Dict.keys r.1.exprs).Nodup := by rw [I.keys]; exact hxn
  refine ⟨hpois, I.nps, I.norms, fun k hk => ((hfk k).1 hk).1, ?_⟩
  set m' : PoiModel := { r.1 with exprs := r.1.exprs.filter (fun p => decide (p.1 ∉ Dict.keys r.2)) } with hm'
  have hb' := Props.base_keys' m' env
  have hmp : m'.pois = r.1.pois := rfl
  have hmn : m'.nps = m.nps := I.nps
  have hseen : ∀ k ∈ m'.pois, k ∈ m.seen := by
    intro k hk
    rw [hmp, hpois, List.mem_filter] at hk
    refine List.mem_filter.2 ⟨hk.1, ?_⟩
    simp only [decide_eq_true_eq] at hk ⊢
    exact fun hx => hk.2 (hhid k hk.1 hx)
  have hsub : m'.pois.Sublist m.seen := by
    rw [hmp, hpois]
    unfold seen
    have : m.pois.filter (fun k => k ∉ names) = (m.pois.filter (fun k => k ∉ m.exprs.keys)).filter (fun k => k ∉ names) := by
      rw [List.filter_filter]
      apply List.filter_congr
      intro k hk
      by_cases h1 : k ∈ names
      · simp [h1]
      · have := mt (hhid k hk) h1
        simp [h1, this]
    rw [this]
    exact List.filter_sublist
  have hnodup : ((m'.ctx.base (fun i => env (m'.pois.get i))).keys ++ Dict.keys m'.exprs).Nodup := by
    rw [hb']
    have s1 : (m'.pois ++ Dict.keys m'.nps ++ Dict.keys m'.exprs).Sublist
        (m.seen ++ Dict.keys m.nps ++ Dict.keys m.exprs) := by
      refine (List.Sublist.append (List.Sublist.append hsub ?_) ?_)
      · rw [hmn]
      · rw [← I.keys]; simp only [hm', Dict.keys]; exact List.filter_sublist.map _
    exact hN.sublist s1
  obtain ⟨d', c1, c2, c3⟩ := ExprCtx.evalLoop_ok (env := env) m'.exprs
      (m'.ctx.base (fun i => env (m'.pois.get i))) hnodup (by
    intro k hk
    rw [hb'] at hk
    rw [Props.base_eq, Dict.get?_append, Props.get?_map_names]
    by_cases hkp : k ∈ m'.pois
    · rw [if_pos hkp]; rfl
    · rw [if_neg hkp, Option.none_or, hmn]
      have hkn : k ∈ Dict.keys m.nps := by
        have := (List.mem_append.1 hk).resolve_left hkp
        rw [hmn] at this; exact this
      obtain ⟨v, hv⟩ := (Dict.mem_keys_iff _ _).1 hkn
      rw [hv, hnp (k, v) ((Dict.get?_eq_some_iff _ (List.nodup_append.1 (List.nodup_append.1 hN).1).2.1 _ _).1 hv)]) (by
    intro pre nm e post hsplit
    obtain ⟨pre', post', hs', hpre⟩ := Props.prefix_of_filter _ _ _ _ _ hsplit
    have hmem : (nm, e) ∈ m'.exprs := by rw [hsplit]; simp
    have hmem1 : (nm, e) ∈ r.1.exprs := (List.mem_filter.1 hmem).1
    have hnT : nm ∉ Dict.keys r.2 := by simpa using (List.mem_filter.1 hmem).2
    have hg : r.1.exprs.get? nm = some e := (Dict.get?_eq_some_iff _ hrx _ _).2 hmem1
    obtain ⟨q1, q2⟩ := I.solves nm e hg
    refine ⟨fun k hk => ?_, q1, q2⟩
    have hcl := I.clean nm e hg (by simpa using hnT) k hk
    obtain ⟨e0, he0, hsub0⟩ := I.deps nm e hg
    have hk0 : k ∈ m.seen ++ Dict.keys m.nps ++ Dict.keys pre' := by
      have hkeq : Dict.keys m.exprs = Dict.keys pre' ++ nm :: Dict.keys post' := by
        rw [← I.keys, hs', Dict.keys_append]; rfl
      obtain ⟨pre0, post0, hsp0⟩ := List.append_of_mem ((Dict.get?_eq_some_iff _ hxn _ _).1 he0)
      have hk1 := hO pre0 nm e0 post0 hsp0 k (hsub0 k hk)
      have hkeq0 : Dict.keys m.exprs = Dict.keys pre0 ++ nm :: Dict.keys post0 := by
        rw [hsp0, Dict.keys_append]; rfl
      have : Dict.keys pre0 = Dict.keys pre' := by
        have hh := hkeq0.symm.trans hkeq
        exact Props.prefix_unique hh (hkeq0 ▸ hxn)
      rw [← this]; exact hk1
    rw [hb']
    simp only [List.mem_append] at hk0 ⊢
    rcases hk0 with (h1 | h1) | h1
    · refine Or.inl (Or.inl ?_)
      rw [hmp, hpois]
      have h2 := List.mem_filter.1 h1
      refine List.mem_filter.2 ⟨h2.1, ?_⟩
      have h3 : k ∉ m.exprs.keys := by simpa using h2.2
      have : k ∉ names := fun hn => hcl.1 ((g1 k).2 ⟨hn, h3⟩)
      simpa using this
    · exact Or.inl (Or.inr (by rw [hmn]; exact h1))
    · right
      rw [hpre]
      simp only [Dict.keys, List.mem_map, List.mem_filter] at h1 ⊢
      obtain ⟨a, ha, rfl⟩ := h1
      refine ⟨a, ⟨ha, ?_⟩, rfl⟩
      have := hcl.2
      simpa [Dict.keys] using this)
  have hd'k : d'.keys = m'.pois ++ Dict.keys m.nps ++ Dict.keys m'.exprs := by rw [c2, hb', hmn]
  refine ⟨d', c1, hd'k, c3, ?_⟩
  intro k hk hkd
  rw [hd'k]
  simp only [List.mem_append] at hkd ⊢
  rcases hkd with (h1 | h1) | h1
  · refine Or.inl (Or.inl ?_)
    rw [hmp, hpois]
    have h2 := List.mem_filter.1 h1
    refine List.mem_filter.2 ⟨h2.1, ?_⟩
    have h3 : k ∉ m.exprs.keys := by simpa using h2.2
    have : k ∉ names := fun hn => I.normsFree k ((g1 k).2 ⟨hn, h3⟩) hk
    simpa using this
  · exact Or.inl (Or.inr h1)
  · exact Or.inr ((hfk k).2 ⟨h1, fun hT => hTk k hT hk⟩)

end PoiModel
end Verif
