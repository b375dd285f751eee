import Verif.Lemmas.Reparam
/-!
# C07: fixing parameters inside expressions; removing POIs from a model

`m.realVals p` is `Model.real_vals` of the model `m` where each POI `k` has the value `p k`.
-/
namespace Verif.Props
open Verif

/-- POI, NP and expression names are pairwise distinct. -/
def PoiModel.Distinct (m : PoiModel) : Prop :=
  (m.pois ++ Dict.keys m.nps ++ Dict.keys m.exprs).Nodup

theorem ofFn_get (l : List String) : List.ofFn l.get = l := List.ofFn_get l

theorem base_keys' (m : PoiModel) (p : String → ℝ) :
    (m.ctx.base (fun i => p (m.pois.get i))).keys = m.pois ++ Dict.keys m.nps := by
  rw [ExprCtx.base_keys]
  simp only [PoiModel.ctx]
  rw [ofFn_get]

theorem base_eq (m : PoiModel) (p : String → ℝ) :
    m.ctx.base (fun i => p (m.pois.get i)) = m.pois.map (fun k => (k, p k)) ++ m.nps := by
  simp only [ExprCtx.base, PoiModel.ctx]
  congr 1
  conv_rhs => rw [← ofFn_get m.pois]
  rw [List.map_ofFn]; rfl

theorem get?_map_names (l : List String) (p : String → ℝ) (k : String) :
    Dict.get? (l.map (fun k => (k, p k))) k = if k ∈ l then some (p k) else none := by
  induction l with
  | nil => simp
  | cons a l ih =>
    rw [List.map_cons, Dict.get?_cons, ih]
    by_cases h : a = k
    · simp [h]
    · simp [h, Ne.symm h]

theorem prefix_of_filter {α : Type} (q : α → Bool) (l pre : List α) (a : α) (post : List α)
    (h : l.filter q = pre ++ a :: post) :
    ∃ pre' post', l = pre' ++ a :: post' ∧ pre = pre'.filter q := by
  induction l generalizing pre with
  | nil => simp at h
  | cons b l ih =>
    rw [List.filter_cons] at h
    split_ifs at h with hb
    · cases pre with
      | nil =>
        simp only [List.nil_append, List.cons.injEq] at h
        exact ⟨[], l, by rw [h.1]; rfl, rfl⟩
      | cons c pre =>
        simp only [List.cons_append, List.cons.injEq] at h
        obtain ⟨pre', post', e1, e2⟩ := ih pre h.2
        exact ⟨b :: pre', post', by rw [e1]; rfl, by rw [List.filter_cons, if_pos hb, ← e2, h.1]⟩
    · obtain ⟨pre', post', e1, e2⟩ := ih pre h
      exact ⟨b :: pre', post', by rw [e1]; rfl, by rw [List.filter_cons, if_neg hb, ← e2]⟩

theorem prefix_unique {a b c e : List String} {x : String} (h : a ++ x :: b = c ++ x :: e)
    (hn : (a ++ x :: b).Nodup) : a = c := by
  induction a generalizing c with
  | nil =>
    cases c with
    | nil => rfl
    | cons y c =>
      simp only [List.nil_append, List.cons_append, List.cons.injEq] at h hn
      rw [h.2] at hn
      simp at hn
  | cons z a ih =>
    cases c with
    | nil =>
      simp only [List.nil_append, List.cons_append, List.cons.injEq] at h hn
      rw [h.1] at hn
      simp at hn
    | cons y c =>
      simp only [List.cons_append, List.cons.injEq] at h hn
      rw [h.1, ih h.2 (List.nodup_cons.1 hn).2]

theorem idxOf_append_lt {l pre post : List String} {nm : String} (h : l = pre ++ nm :: post)
    (hn : l.Nodup) {k : String} (hk : k ∈ pre) : l.idxOf k < l.idxOf nm := by
  subst h
  have h1 : nm ∉ pre := fun hm => (List.nodup_append.1 hn).2.2 nm hm nm (by simp) rfl
  rw [List.idxOf_append_of_mem hk, List.idxOf_append_of_notMem h1]
  have := List.idxOf_lt_length_of_mem hk
  simp only [List.idxOf_cons_self, Nat.add_zero]
  omega

/-- C07.  If `remove_pois` succeeds, then at every point, evaluating the new model gives, for each
POI, NP and expression that is left, the value it had in the old model at the point where each
removed POI has the value given for it; the new model depends on the remaining POIs only, its NPs
are unchanged, and every quantity that normalises a sample is still there.  (A removed POI for which
no value was given may have any value in the old model.) -/
theorem c07_remove_pois (fuel : Nat) (m m' : PoiModel) (hD : PoiModel.Distinct m)
    (names : List String) (values : Dict ℝ)
    (h : m.removePois fuel names values = .ok m') (p q : String → ℝ)
    (hpq : ∀ k ∈ m'.pois, q k = p k)
    (hval : ∀ k ∈ names, ∀ v, values.get? k = some v → p k = v)
    (d : Dict ℝ) (hd : m.realVals p = .ok d) :
    m'.pois = m.pois.filter (fun k => k ∉ names) ∧ m'.nps = m.nps ∧ m'.norms = m.norms ∧
    (∀ k ∈ Dict.keys m'.exprs, k ∈ Dict.keys m.exprs) ∧
    ∃ d', m'.realVals q = .ok d' ∧
      (∀ k, k ∈ d'.keys ↔ k ∈ m'.pois ∨ k ∈ Dict.keys m'.nps ∨ k ∈ Dict.keys m'.exprs) ∧
      (∀ k ∈ d'.keys, d'.get? k = d.get? k) ∧
      ∀ k ∈ m.norms, k ∈ d.keys → k ∈ d'.keys := by
  simp only [PoiModel.removePois] at h
  by_cases hb : ∃ nm ∈ names, nm ∉ m.pois
  · rw [if_pos hb] at h; simp at h
  rw [if_neg hb] at h
  push Not at hb
  obtain ⟨r, hr, h⟩ := bind_eq_ok.1 h
  unfold PoiModel.Distinct at hD
  have hbase := base_keys' m p
  have hnd : ((m.ctx.base (fun i => p (m.pois.get i))).keys ++ Dict.keys m.exprs).Nodup := by
    rw [hbase]; exact hD
  have hpn : m.pois.Nodup := (List.nodup_append.1 (List.nodup_append.1 hD).1).1
  have hxn : (Dict.keys m.exprs).Nodup := (List.nodup_append.1 hD).2.1
  have hpx : ∀ k ∈ m.pois, k ∉ Dict.keys m.exprs := fun k hk hk' =>
    (List.nodup_append.1 hD).2.2 k (List.mem_append_left _ hk) k hk' rfl
  have hnx : ∀ k ∈ Dict.keys m.nps, k ∉ Dict.keys m.exprs := fun k hk hk' =>
    (List.nodup_append.1 hD).2.2 k (List.mem_append_right _ hk) k hk' rfl
  have hpnp : ∀ k ∈ m.pois, k ∉ Dict.keys m.nps := fun k hk hk' =>
    (List.nodup_append.1 (List.nodup_append.1 hD).1).2.2 k hk k hk' rfl
  obtain ⟨hdk, hdb⟩ := ExprCtx.evalLoop_keys _ _ d hnd hd
  have hdk : d.keys = m.pois ++ Dict.keys m.nps ++ Dict.keys m.exprs := by
    rw [hdk, hbase]
  -- values in the old model
  let env := Expr.look d
  have hdget : ∀ k ∈ d.keys, d.get? k = some (env k) := by
    intro k hk
    obtain ⟨v, hv⟩ := (Dict.mem_keys_iff _ _).1 hk
    simp [env, Expr.look, hv]
  have henvp : ∀ k ∈ m.pois, env k = p k := by
    intro k hk
    have h1 := hdb k (by rw [hbase]; simp [hk])
    rw [base_eq, Dict.get?_append, get?_map_names, if_pos hk] at h1
    simp [env, Expr.look, h1]
  have hsolve : Expr.Solves env m.exprs := by
    intro nm e he
    have := ExprCtx.evalLoop_fix _ _ d hnd hd nm e ((Dict.get?_eq_some_iff _ hxn _ _).1 he)
    refine ⟨this.2.2.1, ?_⟩
    have h2 := this.2.2.2
    rw [hdget nm (by rw [hdk]; simp [(Dict.mem_keys_iff _ _).2 ⟨e, he⟩])] at h2
    exact Option.some.inj h2
  have hprefix := ExprCtx.evalLoop_prefix _ _ d hnd hd
  have hrank : Expr.Ranked (fun k => (m.pois ++ Dict.keys m.nps ++ Dict.keys m.exprs).idxOf k) m.exprs := by
    intro nm e he k hk
    obtain ⟨pre, post, hsplit⟩ := List.append_of_mem ((Dict.get?_eq_some_iff _ hxn _ _).1 he)
    have hkp := hprefix pre nm e post hsplit k hk
    rw [hbase] at hkp
    refine idxOf_append_lt (pre := m.pois ++ Dict.keys m.nps ++ Dict.keys pre)
      (post := Dict.keys post) ?_ hD hkp
    have : Dict.keys m.exprs = Dict.keys pre ++ nm :: Dict.keys post := by
      rw [hsplit, Dict.keys_append]; rfl
    rw [this]; simp
  -- only the values of the POIs that are removed matter
  let env' := env
  have I0 : PoiModel.Inv env m m [] [] :=
    ⟨rfl, rfl, rfl, by simp, by simp, hsolve, fun _ e h => ⟨e, h, fun _ h => h⟩,
      by simp, by simp⟩
  have hvals : ∀ k ∈ names, ∀ v, values.get? k = some v → env k = v := by
    intro k hk v hv; rw [henvp k (hb k hk)]; exact hval k hk v hv
  obtain ⟨gone, g1, I, R, hnd', hTv⟩ := PoiModel.removePoiLoop_inv fuel values names hvals hpx hb m [] [] I0
    hrank hpn r hr
  have g1 : ∀ k, k ∈ gone ↔ k ∈ names := by intro k; rw [g1]; simp
  obtain ⟨e1, e2, e3⟩ := PoiModel.removeExprs_ok _ _ _ _ h
  subst e1
  have hTk : ∀ k ∈ Dict.keys r.2, k ∉ m.norms := by rw [← I.norms]; exact e2
  have hpois : r.1.pois = m.pois.filter (fun k => k ∉ names) := by
    rw [I.filt]
    exact List.filter_congr (fun k _ => by simp [g1])
  have hfk : ∀ k, k ∈ Dict.keys (r.1.exprs.filter (fun p => decide (p.1 ∉ Dict.keys r.2))) ↔
      k ∈ Dict.keys m.exprs ∧ k ∉ Dict.keys r.2 := by
    intro k
    rw [← I.keys]
    simp only [Dict.keys, List.mem_map, List.mem_filter, decide_eq_true_eq]
    constructor
    · rintro ⟨a, ⟨h1, h2⟩, rfl⟩; exact ⟨⟨a, h1, rfl⟩, h2⟩
    · rintro ⟨⟨a, h1, rfl⟩, h2⟩; exact ⟨a, ⟨h1, h2⟩, rfl⟩
  have hrx : (Dict.keys r.1.exprs).Nodup := by rw [I.keys]; exact hxn
  refine ⟨hpois, I.nps, I.norms, fun k hk => ((hfk k).1 hk).1, ?_⟩
  -- evaluation of the new model
  set m' : PoiModel := { r.1 with exprs := r.1.exprs.filter (fun p => decide (p.1 ∉ Dict.keys r.2)) } with hm'
  have hb' := base_keys' m' q
  have hnodup : ((m'.ctx.base (fun i => q (m'.pois.get i))).keys ++ Dict.keys m'.exprs).Nodup := by
    rw [hb']
    have s1 : (r.1.pois ++ Dict.keys m'.nps ++ Dict.keys m'.exprs).Sublist
        (m.pois ++ Dict.keys m.nps ++ Dict.keys m.exprs) := by
      refine (List.Sublist.append (List.Sublist.append (by rw [I.filt]; exact List.filter_sublist) ?_) ?_)
      · simp only [hm']; rw [I.nps]
      · rw [← I.keys]; simp only [hm', Dict.keys]; exact List.filter_sublist.map _
    exact hD.sublist s1
  obtain ⟨d', c1, c2, c3⟩ := ExprCtx.evalLoop_ok (env := env) m'.exprs
      (m'.ctx.base (fun i => q (m'.pois.get i))) hnodup (by
    intro k hk
    rw [hb'] at hk
    rw [base_eq, Dict.get?_append, get?_map_names]
    by_cases hkp : k ∈ m'.pois
    · rw [if_pos hkp, hpq k hkp, henvp k ((I.pois k).1 hkp).1]; rfl
    · rw [if_neg hkp]
      have hkn : k ∈ Dict.keys m.nps := by
        have := (List.mem_append.1 hk).resolve_left hkp
        simp only [hm'] at this; rw [I.nps] at this; exact this
      have h1 := hdb k (by rw [hbase]; simp [hkn])
      rw [base_eq, Dict.get?_append, get?_map_names, if_neg (fun h => hpnp k h hkn), Option.none_or] at h1
      simp only [hm']
      rw [Option.none_or, I.nps, ← h1]
      exact hdget k (by rw [hdk]; simp [hkn])) (by
    intro pre nm e post hsplit
    obtain ⟨pre', post', hs', hpre⟩ := prefix_of_filter _ _ _ _ _ hsplit
    have hmem : (nm, e) ∈ m'.exprs := by rw [hsplit]; simp
    have hmem1 : (nm, e) ∈ r.1.exprs := (List.mem_filter.1 hmem).1
    have hnT : nm ∉ Dict.keys r.2 := by simpa using (List.mem_filter.1 hmem).2
    have hg : r.1.exprs.get? nm = some e := (Dict.get?_eq_some_iff _ hrx _ _).2 hmem1
    obtain ⟨q1, q2⟩ := I.solves nm e hg
    refine ⟨fun k hk => ?_, q1, q2⟩
    have hcl := I.clean nm e hg (by simpa using hnT) k hk
    obtain ⟨e0, he0, hsub⟩ := I.deps nm e hg
    -- position in the old model
    have hk0 : k ∈ m.pois ++ Dict.keys m.nps ++ Dict.keys pre' := by
      have hkeq : Dict.keys m.exprs = Dict.keys pre' ++ nm :: Dict.keys post' := by
        rw [← I.keys, hs', Dict.keys_append]; rfl
      obtain ⟨pre0, post0, hsp0⟩ := List.append_of_mem ((Dict.get?_eq_some_iff _ hxn _ _).1 he0)
      have hk1 := hprefix pre0 nm e0 post0 hsp0 k (hsub k hk)
      rw [hbase] at hk1
      have hkeq0 : Dict.keys m.exprs = Dict.keys pre0 ++ nm :: Dict.keys post0 := by
        rw [hsp0, Dict.keys_append]; rfl
      have : Dict.keys pre0 = Dict.keys pre' := by
        have hh := hkeq0.symm.trans hkeq
        exact prefix_unique hh (hkeq0 ▸ hxn)
      rw [← this]; exact hk1
    rw [hb']
    simp only [List.mem_append] at hk0 ⊢
    rcases hk0 with (h1 | h1) | h1
    · exact Or.inl (Or.inl ((I.pois k).2 ⟨h1, hcl.1⟩))
    · exact Or.inl (Or.inr (by simp only [hm']; rw [I.nps]; exact h1))
    · right
      rw [hpre]
      simp only [Dict.keys, List.mem_map, List.mem_filter] at h1 ⊢
      obtain ⟨a, ha, rfl⟩ := h1
      refine ⟨a, ⟨ha, ?_⟩, rfl⟩
      have := hcl.2
      simpa [Dict.keys] using this)
  have hd'k : d'.keys = m'.pois ++ Dict.keys m'.nps ++ Dict.keys m'.exprs := by rw [c2, hb']
  have hd'sub : ∀ k ∈ d'.keys, k ∈ d.keys := by
    intro k hk
    rw [hd'k] at hk; rw [hdk]
    simp only [List.mem_append] at hk ⊢
    rcases hk with (h1 | h1) | h1
    · exact Or.inl (Or.inl ((I.pois k).1 h1).1)
    · exact Or.inl (Or.inr (by simp only [hm'] at h1; rw [I.nps] at h1; exact h1))
    · exact Or.inr ((hfk k).1 h1).1
  refine ⟨d', c1, fun k => by rw [hd'k]; simp [or_assoc], ?_, ?_⟩
  · intro k hk
    rw [c3 k hk, hdget k (hd'sub k hk)]
  · intro k hk hkd
    rw [hdk] at hkd; rw [hd'k]
    simp only [List.mem_append] at hkd ⊢
    rcases hkd with (h1 | h1) | h1
    · refine Or.inl (Or.inl ((I.pois k).2 ⟨h1, fun hg => I.normsFree k hg hk⟩))
    · exact Or.inl (Or.inr (by simp only [hm']; rw [I.nps]; exact h1))
    · exact Or.inr ((hfk k).2 ⟨h1, fun hT => hTk k hT hk⟩)

/-- C07.  A call of `replace` on one expression, at a point where the parameter has the value it is
replaced by: if the call returns a number, this is the value of the expression; and in every case
the changed expressions of the model still evaluate, to the values they had. -/
theorem c07_replace (fuel : Nat) (m : PoiModel) (hD : PoiModel.Distinct m) (name : String)
    (value : Option ℝ) (nm : String) (S' : Dict Expr) (res : Option ℝ)
    (h : Expr.replace (m.pois ++ Dict.keys m.nps) name value fuel m.exprs nm = .ok (S', res))
    (p : String → ℝ) (d : Dict ℝ) (hd : m.realVals p = .ok d)
    (hv : ∀ v, value = some v → d.get? name = some v) :
    (∀ v, res = some v → d.get? nm = some v) ∧
    ∃ d', PoiModel.realVals { m with exprs := S' } p = .ok d' ∧ d'.keys = d.keys ∧
      ∀ k, d'.get? k = d.get? k := by
  unfold PoiModel.Distinct at hD
  have hbase := base_keys' m p
  have hnd : ((m.ctx.base (fun i => p (m.pois.get i))).keys ++ Dict.keys m.exprs).Nodup := by
    rw [hbase]; exact hD
  have hxn : (Dict.keys m.exprs).Nodup := (List.nodup_append.1 hD).2.1
  obtain ⟨hdk0, hdb⟩ := ExprCtx.evalLoop_keys _ _ d hnd hd
  have hdk : d.keys = m.pois ++ Dict.keys m.nps ++ Dict.keys m.exprs := by
    rw [hdk0, hbase]
  let env := Expr.look d
  have hdget : ∀ k ∈ d.keys, d.get? k = some (env k) := by
    intro k hk
    obtain ⟨v, hv⟩ := (Dict.mem_keys_iff _ _).1 hk
    simp [env, Expr.look, hv]
  have hsolve : Expr.Solves env m.exprs := by
    intro nm e he
    have := ExprCtx.evalLoop_fix _ _ d hnd hd nm e ((Dict.get?_eq_some_iff _ hxn _ _).1 he)
    refine ⟨this.2.2.1, ?_⟩
    have h2 := this.2.2.2
    rw [hdget nm (by rw [hdk]; simp [(Dict.mem_keys_iff _ _).2 ⟨e, he⟩])] at h2
    exact Option.some.inj h2
  have hprefix := ExprCtx.evalLoop_prefix _ _ d hnd hd
  have hrank : Expr.Ranked (fun k => (m.pois ++ Dict.keys m.nps ++ Dict.keys m.exprs).idxOf k) m.exprs := by
    intro nm e he k hk
    obtain ⟨pre, post, hsplit⟩ := List.append_of_mem ((Dict.get?_eq_some_iff _ hxn _ _).1 he)
    have hkp := hprefix pre nm e post hsplit k hk
    rw [hbase] at hkp
    refine idxOf_append_lt (pre := m.pois ++ Dict.keys m.nps ++ Dict.keys pre)
      (post := Dict.keys post) ?_ hD hkp
    have : Dict.keys m.exprs = Dict.keys pre ++ nm :: Dict.keys post := by
      rw [hsplit, Dict.keys_append]; rfl
    rw [this]; simp
  have C := Expr.replace_spec (env := env) (rank := _) (fun v hv' => by
    simp [env, Expr.look, hv v hv']) fuel m.exprs nm _ hrank hsolve h
  have hk' : Dict.keys S' = Dict.keys m.exprs := C.step.keys
  constructor
  · intro v hres
    have hnm : nm ∈ d.keys := by
      rw [hdk]
      cases hg : m.exprs.get? nm with
      | some e => simp [(Dict.mem_keys_iff _ _).2 ⟨e, hg⟩]
      | none =>
        cases fuel with
        | zero => simp [Expr.replace] at h
        | succ fuel =>
          simp only [Expr.replace] at h
          obtain ⟨e, he, _⟩ := bind_eq_ok.1 h
          simp only [Expr.find, hg] at he
          split_ifs at he with hp
          exact List.mem_append_left _ hp
    rw [hdget nm hnm, (C.some v hres).1]
  · let m1 : PoiModel := { m with exprs := S' }
    have hb1 : (m1.ctx.base (fun i => p (m1.pois.get i))) = m.ctx.base (fun i => p (m.pois.get i)) := rfl
    obtain ⟨d', c1, c2, c3⟩ := ExprCtx.evalLoop_ok (env := env) S'
      (m.ctx.base (fun i => p (m.pois.get i))) (by rw [hk']; exact hnd) (by
      intro k hk
      rw [← hdb k hk]
      exact hdget k (by rw [hdk0]; exact List.mem_append_left _ hk)) (by
      intro pre nm' e post hsplit
      have hxn' : (Dict.keys S').Nodup := by rw [hk']; exact hxn
      have hg : S'.get? nm' = some e := (Dict.get?_eq_some_iff _ hxn' _ _).2 (by rw [hsplit]; simp)
      obtain ⟨q1, q2⟩ := C.step.solves nm' e hg
      refine ⟨fun k hk => ?_, q1, q2⟩
      obtain ⟨e0, he0, hsub⟩ := C.step.deps nm' e hg
      obtain ⟨pre0, post0, hsp0⟩ := List.append_of_mem ((Dict.get?_eq_some_iff _ hxn _ _).1 he0)
      have hk1 := hprefix pre0 nm' e0 post0 hsp0 k (hsub k hk)
      have hkeq0 : Dict.keys m.exprs = Dict.keys pre0 ++ nm' :: Dict.keys post0 := by
        rw [hsp0, Dict.keys_append]; rfl
      have hkeq : Dict.keys m.exprs = Dict.keys pre ++ nm' :: Dict.keys post := by
        rw [← hk', hsplit, Dict.keys_append]; rfl
      rw [← prefix_unique (hkeq0.symm.trans hkeq) (hkeq0 ▸ hxn)]
      exact hk1)
    have hkd : d'.keys = d.keys := by rw [c2, hk', hdk0]
    refine ⟨d', c1, hkd, fun k => ?_⟩
    by_cases hk : k ∈ d'.keys
    · rw [c3 k hk, hdget k (hkd ▸ hk)]
    · rw [(Dict.get?_eq_none_iff _ _).2 hk, (Dict.get?_eq_none_iff _ _).2 (hkd ▸ hk)]

/-- C07.  On a model without products and ratios, replacing a parameter by a number always succeeds,
whatever the (sufficient) recursion depth. -/
theorem c07_replace_succeeds (m : PoiModel) (hD : PoiModel.Distinct m) (name : String) (v : ℝ)
    (hnp : ∀ q ∈ m.exprs, ∀ pre num den, q.2 ≠ .prodRatio pre num den)
    (p : String → ℝ) (d : Dict ℝ) (hd : m.realVals p = .ok d) (hv : d.get? name = some v)
    (nm : String) (hnm : nm ∈ d.keys) (fuel : Nat)
    (hf : m.pois.length + m.nps.length + m.exprs.length ≤ fuel) :
    ∃ r, Expr.replace (m.pois ++ Dict.keys m.nps) name (some v) fuel m.exprs nm = .ok r := by
  unfold PoiModel.Distinct at hD
  have hbase := base_keys' m p
  have hnd : ((m.ctx.base (fun i => p (m.pois.get i))).keys ++ Dict.keys m.exprs).Nodup := by
    rw [hbase]; exact hD
  have hxn : (Dict.keys m.exprs).Nodup := (List.nodup_append.1 hD).2.1
  obtain ⟨hdk0, hdb⟩ := ExprCtx.evalLoop_keys _ _ d hnd hd
  have hdk : d.keys = m.pois ++ Dict.keys m.nps ++ Dict.keys m.exprs := by
    rw [hdk0, hbase]
  let env := Expr.look d
  have hdget : ∀ k ∈ d.keys, d.get? k = some (env k) := by
    intro k hk
    obtain ⟨v, hv⟩ := (Dict.mem_keys_iff _ _).1 hk
    simp [env, Expr.look, hv]
  have hsolve : Expr.Solves env m.exprs := by
    intro nm e he
    have := ExprCtx.evalLoop_fix _ _ d hnd hd nm e ((Dict.get?_eq_some_iff _ hxn _ _).1 he)
    refine ⟨this.2.2.1, ?_⟩
    have h2 := this.2.2.2
    rw [hdget nm (by rw [hdk]; simp [(Dict.mem_keys_iff _ _).2 ⟨e, he⟩])] at h2
    exact Option.some.inj h2
  have hprefix := ExprCtx.evalLoop_prefix _ _ d hnd hd
  have hdep : ∀ nm e, m.exprs.get? nm = some e → ∀ k ∈ e.deps nm,
      ∃ pre post, m.exprs = pre ++ (nm, e) :: post ∧ k ∈ m.pois ++ Dict.keys m.nps ++ Dict.keys pre := by
    intro nm e he k hk
    obtain ⟨pre, post, hsplit⟩ := List.append_of_mem ((Dict.get?_eq_some_iff _ hxn _ _).1 he)
    have hkp := hprefix pre nm e post hsplit k hk
    rw [hbase] at hkp
    exact ⟨pre, post, hsplit, hkp⟩
  have hrank : Expr.Ranked (fun k => (m.pois ++ Dict.keys m.nps ++ Dict.keys m.exprs).idxOf k) m.exprs := by
    intro nm e he k hk
    obtain ⟨pre, post, hsplit, hkp⟩ := hdep nm e he k hk
    refine idxOf_append_lt (pre := m.pois ++ Dict.keys m.nps ++ Dict.keys pre)
      (post := Dict.keys post) ?_ hD hkp
    have : Dict.keys m.exprs = Dict.keys pre ++ nm :: Dict.keys post := by
      rw [hsplit, Dict.keys_append]; rfl
    rw [this]; simp
  obtain ⟨r, hr, _⟩ := Expr.replace_total (env := env) (params := m.pois ++ Dict.keys m.nps)
    (name := name) (v := v) (by simp [env, Expr.look, hv]) fuel m.exprs nm hrank hsolve
    (fun nm pre num den hg => hnp _ ((Dict.get?_eq_some_iff _ hxn _ _).1 hg) pre num den rfl)
    (by
      intro nm e he k hk
      obtain ⟨pre, post, hsplit, hkp⟩ := hdep nm e he k hk
      rcases List.mem_append.1 hkp with h | h
      · exact Or.inl h
      · right; rw [hsplit, Dict.keys_append]; exact List.mem_append_left _ h)
    (by rw [hdk] at hnm; exact List.mem_append.1 hnm)
    (by
      have := List.idxOf_lt_length_of_mem (hdk ▸ hnm)
      simp only [List.length_append, Dict.keys, List.length_map] at this ⊢
      omega)
  exact ⟨r, hr⟩

/-- C07.  What the code does when a removed POI normalises a sample: it never succeeds, with or
without a replacement value. -/
theorem c07_norm_fails (fuel : Nat) (m : PoiModel) (name : String) (hx : name ∉ Dict.keys m.exprs)
    (hn : name ∈ m.norms) (values : Dict ℝ) (rest : List String) (m' : PoiModel) :
    m.removePois fuel (name :: rest) values ≠ .ok m' := by
  intro h
  simp only [PoiModel.removePois] at h
  split_ifs at h
  · simp at h
  · obtain ⟨r, hr, _⟩ := bind_eq_ok.1 h
    simp only [PoiModel.removePoiLoop] at hr
    obtain ⟨r1, hr1, _⟩ := bind_eq_ok.1 hr
    simp only [PoiModel.removePoi, if_pos hx] at hr1
    obtain ⟨u, hu, _⟩ := bind_eq_ok.1 hr1
    exact PoiModel.removeFromNorms_ok hu hn

/-- C07.  What the code does with products and ratios: replacing a parameter that occurs in the
numerator never succeeds (the code deletes from a list by name, a `TypeError`, unless another error
comes first). -/
theorem c07_product_fails (fuel : Nat) (m : PoiModel) (hD : PoiModel.Distinct m) (name : String)
    (hp : name ∈ m.pois) (v : ℝ) (nm : String) (pre : ℝ) (num den : List String)
    (hm : m.exprs.get? nm = some (.prodRatio pre num den)) (hn : name ∈ num) (p : String → ℝ) (d : Dict ℝ)
    (hd : m.realVals p = .ok d) (hpv : p name = v) (r : Dict Expr × Option ℝ) :
    Expr.replace (m.pois ++ Dict.keys m.nps) name (some v) fuel m.exprs nm ≠ .ok r := by
  intro h
  obtain ⟨S', res⟩ := r
  unfold PoiModel.Distinct at hD
  have hxn : (Dict.keys m.exprs).Nodup := (List.nodup_append.1 hD).2.1
  have hbase := base_keys' m p
  have hnd : ((m.ctx.base (fun i => p (m.pois.get i))).keys ++ Dict.keys m.exprs).Nodup := by
    rw [hbase]; exact hD
  obtain ⟨hdk0, hdb⟩ := ExprCtx.evalLoop_keys _ _ d hnd hd
  have hdn : d.get? name = some v := by
    rw [hdb name (by rw [hbase]; simp [hp]), base_eq, Dict.get?_append, get?_map_names, if_pos hp, hpv]; rfl
  let env := Expr.look d
  have hdk : d.keys = m.pois ++ Dict.keys m.nps ++ Dict.keys m.exprs := by
    rw [hdk0, hbase]
  have hdget : ∀ k ∈ d.keys, d.get? k = some (env k) := by
    intro k hk
    obtain ⟨v, hv⟩ := (Dict.mem_keys_iff _ _).1 hk
    simp [env, Expr.look, hv]
  have hsolve : Expr.Solves env m.exprs := by
    intro nm e he
    have := ExprCtx.evalLoop_fix _ _ d hnd hd nm e ((Dict.get?_eq_some_iff _ hxn _ _).1 he)
    refine ⟨this.2.2.1, ?_⟩
    have h2 := this.2.2.2
    rw [hdget nm (by rw [hdk]; simp [(Dict.mem_keys_iff _ _).2 ⟨e, he⟩])] at h2
    exact Option.some.inj h2
  have hprefix := ExprCtx.evalLoop_prefix _ _ d hnd hd
  have hrank : Expr.Ranked (fun k => (m.pois ++ Dict.keys m.nps ++ Dict.keys m.exprs).idxOf k) m.exprs := by
    intro nm e he k hk
    obtain ⟨pre, post, hsplit⟩ := List.append_of_mem ((Dict.get?_eq_some_iff _ hxn _ _).1 he)
    have hkp := hprefix pre nm e post hsplit k hk
    rw [hbase] at hkp
    refine idxOf_append_lt (pre := m.pois ++ Dict.keys m.nps ++ Dict.keys pre)
      (post := Dict.keys post) ?_ hD hkp
    have : Dict.keys m.exprs = Dict.keys pre ++ nm :: Dict.keys post := by
      rw [hsplit, Dict.keys_append]; rfl
    rw [this]; simp
  have C := Expr.replace_spec (env := env) (rank := _) (value := some v) (fun w hw => by
    cases hw; simp [env, Expr.look, hdn]) fuel m.exprs nm _ hrank hsolve h
  have hpx : name ∉ Dict.keys m.exprs := fun hk' =>
    (List.nodup_append.1 hD).2.2 name (List.mem_append_left _ hp) name hk' rfl
  have ht : Expr.Triv name m.exprs name := .par ((Dict.get?_eq_none_iff _ _).2 hpx)
  cases res with
  | none =>
    have := (C.none rfl).2
    -- the expression is unchanged, so it still refers to `name`
    have hnt := (C.none rfl).1
    obtain ⟨e', he'⟩ := (Dict.mem_keys_iff S' nm).1 (by
      have : Dict.keys S' = Dict.keys m.exprs := C.step.keys
      rw [this]; exact (Dict.mem_keys_iff _ _).2 ⟨_, hm⟩)
    have hkeep : e' = .prodRatio pre num den := by
      cases fuel with
      | zero => simp [Expr.replace] at h
      | succ fuel =>
        simp only [Expr.replace, Expr.find, hm, bind_ok, Expr.replaceProd] at h
        obtain ⟨o1, ho1, h⟩ := bind_eq_ok.1 h
        have hrec := fun S nm r a b c => Expr.replace_spec (env := env) (name := name)
          (value := some v) (params := m.pois ++ Dict.keys m.nps)
          (rank := (fun k => (m.pois ++ Dict.keys m.nps ++ Dict.keys m.exprs).idxOf k)) (fun w hw => by
          cases hw; simp [env, Expr.look, hdn]) fuel S nm r a b c
        have hk1 : Dict.keys (num.map (fun k => (k, (1:ℝ)))) = num := by
          simp [Dict.keys, Function.comp_def]
        have L1 := Expr.replaceLoop_spec hrec
          ((m.pois ++ Dict.keys m.nps ++ Dict.keys m.exprs).idxOf nm) _ (fun k hk => hrank nm _ hm k (by
          rw [hk1] at hk; simp [Expr.deps, hk])) m.exprs o1 hrank hsolve ho1
        by_cases h1 : o1.removed ≠ []
        · rw [if_pos h1] at h; simp at h
        push Not at h1
        have e1 := L1.removed h1
        exact absurd ht (L1.kept name (by rw [e1, hk1]; exact hn)).2
    subst hkeep
    exact this _ he' name (by simp [Expr.deps, hn]) ht
  | some w =>
    have := (C.some w rfl).2
    cases this with
    | par hq => rw [hm] at hq; cases hq
    | lin hq _ => rw [hm] at hq; cases hq
    | prod hq => rw [hm] at hq; cases hq; simp at hn
    | exp hq _ => rw [hm] at hq; cases hq

/-- A model with two POIs; `A = 1 + 2 mu + 3 nu`, `E = exp A`, `B = mu`; samples are normalised by
`E`. -/
noncomputable def exReparam : PoiModel where
  pois := ["mu", "nu"]
  nps := [("np", 0)]
  exprs := [("A", .linear 1 [("mu", 2), ("nu", 3)]), ("E", .exponential "A"), ("B", .linear 0 [("mu", 1)])]
  norms := ["E"]

/-- The hypotheses of `c07_remove_pois` are met: `mu` can be removed from the example, giving
`A = (1 + 2*5) + 3 nu`, `E = exp A`, and no `B`. -/
example : PoiModel.Distinct exReparam ∧ (∃ d, exReparam.realVals (fun _ => 5) = .ok d) ∧
    exReparam.removePois 4 ["mu"] [("mu", 5)] = .ok
      { pois := ["nu"], nps := [("np", 0)],
        exprs := [("A", .linear (1 + (2 * 5 + 0)) [("nu", 3)]), ("E", .exponential "A")], norms := ["E"] } := by
  refine ⟨?_, ?_, ?_⟩
  · simp [PoiModel.Distinct, exReparam, Dict.keys]
  · simp [PoiModel.realVals, exReparam, PoiModel.ctx, ExprCtx.realVals, ExprCtx.evalLoop, ExprCtx.base,
      Expr.value, Expr.lookups, Dict.keys, Dict.getItem, Dict.get?, Dict.set]
  · simp [PoiModel.removePois, PoiModel.removePoiLoop, PoiModel.removePoi, PoiModel.removeFromNorms,
      PoiModel.removeExprs, PoiModel.replaceAll, exReparam, Dict.keys, Dict.get?, Expr.replace, Expr.find,
      Expr.replaceLoop, Expr.replaceLinear, Dict.set, Except.bind, bind, pure, Except.pure]

/-- What the code does when two POIs are removed in one call and an expression becomes constant at
the first: the call fails, as the expression is listed twice for removal. -/
example : PoiModel.removePois 4 { exReparam with norms := [] } ["mu", "nu"] [("mu", 5), ("nu", 1)]
    = .error .keyError := by
  simp [PoiModel.removePois, PoiModel.removePoiLoop, PoiModel.removePoi, PoiModel.removeFromNorms,
      PoiModel.removeExprs, PoiModel.replaceAll, exReparam, Dict.keys, Dict.get?, Expr.replace, Expr.find,
      Expr.replaceLoop, Expr.replaceLinear, Dict.set, Except.bind, bind, pure, Except.pure, throw, throwThe, MonadExceptOf.throw]

/-- And when the removed POI normalises a sample: `NameError`, although a value is given. -/
example : PoiModel.removePois 4 { exReparam with norms := ["mu"] } ["mu"] [("mu", 5)]
    = .error .nameError := by
  simp [PoiModel.removePois, PoiModel.removePoiLoop, PoiModel.removePoi, PoiModel.removeFromNorms,
      exReparam, Dict.keys, Dict.get?, Except.bind, bind]
end Verif.Props
