import Verif.Lemmas.ReparamAdd
import Verif.Lemmas.Yields
/-! Lemmas on the reparameterisation of a `Model` -/
namespace Verif
namespace Mdl
variable {n P : Nat}

theorem addPois_ok {l new l' : List (String × ℝ)} (h : addPois l new = .ok l') (hn : (l.map (·.1)).Nodup) :
    l' = l ++ new ∧ (l'.map (·.1)).Nodup := by
  unfold addPois at h
  induction new generalizing l with
  | nil =>
    simp only [List.foldlM_nil, pure_ok, Except.ok.injEq] at h
    subst h; simp [hn]
  | cons p new ih =>
    rw [List.foldlM_cons] at h
    by_cases hp : p.1 ∈ l.map (·.1)
    · rw [if_pos hp] at h; simp at h
    · rw [if_neg hp, bind_ok] at h
      obtain ⟨h1, h2⟩ := ih h (by
        rw [List.map_append, List.nodup_append]
        refine ⟨hn, by simp, ?_⟩
        rintro a ha b hb rfl
        simp only [List.map_cons, List.map_nil, List.mem_singleton] at hb
        exact hp (hb ▸ ha))
      exact ⟨by rw [h1]; simp, h2⟩

theorem addExprs_ok {d d' : Dict Expr} {new : List (String × Expr)} (h : addExprs d new = .ok d') (hn : (Dict.keys d).Nodup) :
    d' = d ++ new ∧ (Dict.keys d').Nodup := by
  unfold addExprs at h
  induction new generalizing d with
  | nil =>
    simp only [List.foldlM_nil, pure_ok, Except.ok.injEq] at h
    subst h; simp [hn]
  | cons p new ih =>
    rw [List.foldlM_cons] at h
    by_cases hp : p.1 ∈ Dict.keys d
    · rw [if_pos hp] at h; simp at h
    · rw [if_neg hp, bind_ok] at h
      obtain ⟨h1, h2⟩ := ih h (by
        rw [Dict.keys_append, List.nodup_append]
        refine ⟨hn, by simp [Dict.keys], ?_⟩
        rintro a ha b hb rfl
        simp only [Dict.keys, List.map_cons, List.map_nil, List.mem_singleton] at hb
        exact hp (hb ▸ ha))
      exact ⟨by rw [h1]; simp, h2⟩

theorem part_congr {α : Type} [Zero α] {ch : Channel} {s : Nat} {f g : Sample → Except PyErr (List α)}
    (h : ∀ smp ∈ ch.samples, f smp = g smp) : ch.part s f = ch.part s g := by
  unfold Channel.part
  cases hs : ch.samples[s]? with
  | none => rfl
  | some smp => exact h smp (List.mem_of_getElem? hs)

theorem mapM_congr {α β : Type} {l : List α} {f g : α → Except PyErr β} (h : ∀ a ∈ l, f a = g a) : l.mapM f = l.mapM g := by
  induction l with
  | nil => rfl
  | cons a l ih =>
    simp only [List.mapM_cons]
    rw [h a (by simp), ih (fun b hb => h b (by simp [hb]))]

theorem stackRows_congr {α : Type} [Zero α] {n' P' : Nat} {m : Mdl n P} {m' : Mdl n' P'} (hc : m'.channels = m.channels)
    {f g : Sample → Except PyErr (List α)} (h : ∀ ch ∈ m.channels, ∀ smp ∈ ch.samples, f smp = g smp) :
    m'.stackRows f = m.stackRows g := by
  have hP : m'.nbinsPoisson = m.nbinsPoisson := by unfold nbinsPoisson; rw [hc]
  have hs : m'.chanState = m.chanState := by unfold chanState; rw [hc, hP]
  unfold stackRows nbins maxSamples
  rw [hc, hs]
  refine mapM_congr fun s _ => ?_
  have : m.channels.mapM (fun ch => ch.part s f) = m.channels.mapM (fun ch => ch.part s g) :=
    mapM_congr fun ch hch => part_congr (h ch hch)
  rw [this]

/-- The base dictionary in terms of the names. -/
theorem base_env {m : Mdl n P} (env : String → ℝ) :
    m.ctx.base (fun i => env (m.pois i)) = (List.ofFn m.pois).map (fun k => (k, env k)) ++
      List.ofFn fun p => ((m.nps p).name, (m.nps p).nominal_value) := by
  simp only [ExprCtx.base, ctx]
  congr 1
  rw [List.map_ofFn]; rfl

theorem ofFn_withPois (m : Mdl n P) (l : List (String × ℝ)) : List.ofFn (m.withPois l).pois = l.map (·.1) := by
  conv_rhs => rw [← List.ofFn_get l, List.map_ofFn]
  rfl

theorem poiList_names (m : Mdl n P) : m.poiList.map (·.1) = List.ofFn m.pois := by
  rw [poiList, List.map_ofFn]; rfl

/-- Two lists of names of which one is a filter of the other. -/
theorem filter_names (l : List (String × ℝ)) (p : String → Bool) :
    ((l.filter fun q => q.1 ∈ (l.map (·.1)).filter p).map (·.1)) = (l.map (·.1)).filter p := by
  rw [List.filter_map]
  congr 1
  apply List.filter_congr
  intro q hq
  have : q.1 ∈ l.map (·.1) := List.mem_map.2 ⟨q, hq, rfl⟩
  cases hp : p q.1 <;> simp [List.mem_filter, hp]
  exact ⟨_, hq⟩

/-- What is left when the removal has succeeded. -/
theorem removePois_ok {fuel : Nat} {m : Mdl n P} {names : List String} {values : Dict ℝ} {n' : Nat} {m' : Mdl n' P}
    (h : removePois fuel m names values = .ok ⟨n', m'⟩) (q : String → Bool) :
    ∃ r, m.poiModel.removePois fuel names values = .ok r ∧
      (r.pois = (List.ofFn m.pois).filter q → List.ofFn m'.pois = r.pois) ∧
      m'.nps = m.nps ∧ m'.exprs = r.exprs ∧ m'.channels = m.channels ∧
      (∀ (A : Arrays) (θ : Fin P → ℝ) s b, m'.cutKExp A θ s b = m.cutKExp A θ s b) := by
  unfold removePois at h
  obtain ⟨r, hr, h⟩ := bind_eq_ok.1 h
  simp only [pure_ok, Except.ok.injEq] at h
  cases h
  refine ⟨r, hr, ?_, rfl, rfl, rfl, fun A θ s b => rfl⟩
  intro hq
  have := ofFn_withPois m (m.poiList.filter fun p => p.1 ∈ r.pois)
  refine this.trans ?_
  rw [hq, ← poiList_names]
  exact filter_names _ _

theorem changePois_names (l change : List (String × ℝ)) : (changePois l change).map (·.1) = l.map (·.1) := by
  simp [changePois, Function.comp_def]

theorem get?_changePois (l change : List (String × ℝ)) (k : String) :
    Dict.get? (changePois l change) k = (Dict.get? l k).map fun v => (Dict.get? change k).getD v := by
  unfold changePois
  induction l with
  | nil => rfl
  | cons a l ih =>
    rw [List.map_cons]
    by_cases h : a.1 = k
    · subst h; simp [Dict.get?]
    · have h1 : Dict.get? (a :: l) k = Dict.get? l k := by simp [Dict.get?, h]
      rw [h1, ← ih]
      simp [Dict.get?, h]

/-- The values that are used for the removed POIs. -/
theorem fillValues_ok {l : List (String × ℝ)} {remove : List String} {values d : Dict ℝ}
    (h : fillValues l remove values = .ok d) : ∀ k v, d.get? k = some v →
      values.get? k = some v ∨ (values.get? k = none ∧ Dict.get? l k = some v) := by
  unfold fillValues at h
  induction remove generalizing values with
  | nil =>
    simp only [List.foldlM_nil, pure_ok, Except.ok.injEq] at h
    subst h; exact fun k v hv => Or.inl hv
  | cons p remove ih =>
    rw [List.foldlM_cons] at h
    by_cases hp : p ∈ values.keys
    · rw [if_pos hp, bind_ok] at h; exact ih h
    · rw [if_neg hp] at h
      obtain ⟨d1, h1, h2⟩ := bind_eq_ok.1 h
      obtain ⟨w, h3, h4⟩ := bind_eq_ok.1 h1
      simp only [pure_ok, Except.ok.injEq] at h4
      subst h4
      have hpn : values.get? p = none := (Dict.get?_eq_none_iff _ _).2 hp
      intro k v hv
      have := ih h2 k v hv
      rw [Dict.get?_set] at this
      by_cases hk : p = k
      · subst hk
        rw [if_pos rfl] at this
        rw [Dict.getItem_ok] at h3
        rcases this with h5 | ⟨h5, -⟩
        · exact Or.inr ⟨hpn, by rw [h3, h5]⟩
        · simp at h5
      · rw [if_neg hk] at this; exact this

/-- All removed POIs have a value. -/
theorem fillValues_all {l : List (String × ℝ)} {remove : List String} {values d : Dict ℝ}
    (h : fillValues l remove values = .ok d) : (∀ k ∈ values.keys, k ∈ d.keys) ∧ ∀ k ∈ remove, k ∈ d.keys := by
  unfold fillValues at h
  induction remove generalizing values with
  | nil =>
    simp only [List.foldlM_nil, pure_ok, Except.ok.injEq] at h
    subst h; exact ⟨fun k hk => hk, by simp⟩
  | cons p remove ih =>
    rw [List.foldlM_cons] at h
    by_cases hp : p ∈ values.keys
    · rw [if_pos hp, bind_ok] at h
      obtain ⟨h1, h2⟩ := ih h
      refine ⟨h1, fun k hk => ?_⟩
      rcases List.mem_cons.1 hk with rfl | hk
      · exact h1 _ hp
      · exact h2 k hk
    · rw [if_neg hp] at h
      obtain ⟨d1, h1, h2⟩ := bind_eq_ok.1 h
      obtain ⟨w, h3, h4⟩ := bind_eq_ok.1 h1
      simp only [pure_ok, Except.ok.injEq] at h4
      subst h4
      obtain ⟨h5, h6⟩ := ih h2
      have hs : ∀ k, (k = p ∨ k ∈ values.keys) → k ∈ d.keys := by
        intro k hk
        refine h5 k ?_
        rw [Dict.mem_keys_iff, Dict.get?_set]
        by_cases hkp : p = k
        · exact ⟨w, by rw [if_pos hkp]⟩
        · rw [if_neg hkp]
          exact (Dict.mem_keys_iff _ _).1 (hk.resolve_left fun h => hkp h.symm)
      refine ⟨fun k hk => hs k (Or.inr hk), fun k hk => ?_⟩
      rcases List.mem_cons.1 hk with rfl | hk
      · exact hs _ (Or.inl rfl)
      · exact h6 k hk

theorem value_congr {d d' : Dict ℝ} (h : ∀ k, d.get? k = d'.get? k) (e : Expr) (nm : String) : e.value d nm = e.value d' nm := by
  have hf : d.getItem = d'.getItem := by
    funext k
    simp only [Dict.getItem, h]
  cases e <;> simp only [Expr.value, Expr.lookups, hf]

/-- Expressions do not depend on the order of the values. -/
theorem evalLoop_congr (es : Dict Expr) : ∀ {d d' : Dict ℝ}, (∀ k, d.get? k = d'.get? k) → ∀ {r}, ExprCtx.evalLoop es d = .ok r →
    ∃ r', ExprCtx.evalLoop es d' = .ok r' ∧ ∀ k, r.get? k = r'.get? k := by
  induction es with
  | nil =>
    intro d d' h r hr
    simp only [ExprCtx.evalLoop, Except.ok.injEq] at hr ⊢
    subst hr
    exact ⟨d', rfl, h⟩
  | cons a es ih =>
    intro d d' h r hr
    obtain ⟨nm, e⟩ := a
    simp only [ExprCtx.evalLoop] at hr ⊢
    obtain ⟨v, hv, hr⟩ := bind_eq_ok.1 hr
    rw [value_congr h] at hv
    rw [hv, bind_ok]
    refine ih ?_ hr
    intro k
    rw [Dict.get?_set, Dict.get?_set, h]

/-- The prediction depends on the POIs through their names and values only. -/
theorem nExp_names {n' : Nat} {m : Mdl n P} {m' : Mdl n' P} (hc : m'.channels = m.channels) (he : m'.exprs = m.exprs)
    (hn : m'.nps = m.nps) (hp : ∀ k, k ∈ List.ofFn m'.pois ↔ k ∈ List.ofFn m.pois)
    (hk : ∀ (A : Arrays) (θ : Fin P → ℝ) s b, m'.cutKExp A θ s b = m.cutKExp A θ s b)
    {env : String → ℝ} {A : Arrays} {θ : Fin P → ℝ} {ne} (h : m.nExp A (fun i => env (m.pois i)) θ = .ok ne) :
    m'.nExp A (fun i => env (m'.pois i)) θ = .ok ne := by
  unfold nExp at h ⊢
  obtain ⟨d, hd, h⟩ := bind_eq_ok.1 h
  obtain ⟨rows, hr, h⟩ := bind_eq_ok.1 h
  simp only [pure_ok, Except.ok.injEq] at h
  subst h
  have hb : ∀ k, (m.ctx.base (fun i => env (m.pois i))).get? k = (m'.ctx.base (fun i => env (m'.pois i))).get? k := by
    intro k
    rw [base_env, base_env, Dict.get?_append, Dict.get?_append, Props.get?_map_names, Props.get?_map_names, hn]
    by_cases hk : k ∈ List.ofFn m.pois
    · rw [if_pos hk, if_pos ((hp k).2 hk)]
    · rw [if_neg hk, if_neg (fun hh => hk ((hp k).1 hh))]
  have hd1 : ExprCtx.evalLoop m.exprs (m.ctx.base (fun i => env (m.pois i))) = .ok d := hd
  obtain ⟨d', hd', hv⟩ := evalLoop_congr _ hb hd1
  have hd2 : m'.ctx.realVals (fun i => env (m'.pois i)) = .ok d' := by
    have : m'.ctx.realVals (fun i => env (m'.pois i)) = ExprCtx.evalLoop m'.exprs (m'.ctx.base (fun i => env (m'.pois i))) := rfl
    rw [this, he, hd']
  have hf : Dict.getItem d = Dict.getItem d' := by
    funext k
    simp only [Dict.getItem, hv]
  have hr2 : m'.stackRows (fun s => s.yields d') = .ok rows := by
    rw [← hr]
    refine stackRows_congr hc ?_
    intro ch _ smp _
    unfold Sample.yields Sample.normalization
    have : smp.norm.value d' = smp.norm.value d := by
      cases smp.norm <;> simp only [Norm.value, hf]
    rw [this]
  simp only [hd2, bind_ok, hr2, pure_ok]
  congr 1
  funext s b
  rw [hk]

/-- `reorder` when the names are those of the POIs. -/
theorem reorder_ok {n' : Nat} {m : Mdl n P} {m' : Mdl n' P} {names : List String} (h : m.reorder names = .ok ⟨n', m'⟩) :
    List.ofFn m'.pois = names ∧ m'.channels = m.channels ∧ m'.exprs = m.exprs ∧ m'.nps = m.nps ∧
      (∀ k ∈ names, k ∈ List.ofFn m.pois) ∧
      ∀ (A : Arrays) (θ : Fin P → ℝ) s b, m'.cutKExp A θ s b = m.cutKExp A θ s b := by
  unfold reorder at h
  obtain ⟨l, hl, h⟩ := bind_eq_ok.1 h
  simp only [pure_ok, Except.ok.injEq] at h
  cases h
  have hf := mapM_ok_iff.1 hl
  have hn : l.map (·.1) = names ∧ ∀ k ∈ names, k ∈ List.ofFn m.pois := by
    clear hl h
    induction hf with
    | nil => simp
    | cons h1 _ ih =>
      obtain ⟨v, h2, h3⟩ := bind_eq_ok.1 h1
      simp only [pure_ok, Except.ok.injEq] at h3
      subst h3
      refine ⟨by simp [ih.1], fun k hk => ?_⟩
      rcases List.mem_cons.1 hk with rfl | hk
      · rw [← poiList_names]
        rw [Dict.getItem_ok] at h2
        exact (Dict.mem_keys_iff _ _).2 ⟨v, h2⟩
      · exact ih.2 k hk
  exact ⟨(ofFn_withPois m l).trans hn.1, rfl, rfl, rfl, hn.2, fun A θ s b => rfl⟩

end Mdl
end Verif
