import Verif.Lemmas.Markup
/-! # What loading guarantees -/
namespace Verif
namespace Markup

/-- The texts of variations are read back: any key that was read from a text, and the two keys that
`set_np_data` writes by itself. -/
structure Texts.Lawful (T : Texts) : Prop where
  again : ∀ s k, T.read s = some k → KeyOk T k
  up : KeyOk T (.num 1)
  down : KeyOk T (.num (-1))

variable {T : Texts}

theorem loadNorm_ok {d : Dict V} {n : Norm} (h : loadNorm T d = .ok n) :
    ∀ e, n = .expr e → T.isFloat e = false := by
  unfold loadNorm at h
  rw [bind_eq_ok] at h
  obtain ⟨v, _, h⟩ := h
  intro e he
  subst he
  cases v with
  | none => by_cases hh : (Dict.get? d "norm").isSome <;> simp [hh] at h
  | num x => simp at h
  | str s =>
    by_cases hf : T.isFloat s
    · simp [hf] at h
    · simp [hf] at h
      rw [← h]; simpa using hf
  | list l => simp at h
  | dict d => simp at h

theorem forall₂_mem_right {α β : Type} {R : α → β → Prop} {l : List α} {r : List β}
    (h : List.Forall₂ R l r) : ∀ b ∈ r, ∃ a ∈ l, R a b := by
  induction h with
  | nil => simp
  | cons h1 _ ih =>
    intro b hb
    rcases List.mem_cons.1 hb with rfl | hb
    · exact ⟨_, by simp, h1⟩
    · obtain ⟨a, ha, hr⟩ := ih b hb
      exact ⟨a, by simp [ha], hr⟩

theorem mapM_mem_right {α β : Type} {f : α → Except PyErr β} {l : List α} {r : List β}
    (h : l.mapM f = .ok r) : ∀ b ∈ r, ∃ a ∈ l, f a = .ok b :=
  forall₂_mem_right (mapM_ok_iff.1 h)

theorem readVars_ok (hT : T.Lawful) {v : V} {l : List (VarKey × ℝ)} (h : readVars T v = .ok l) :
    ∀ kv ∈ l, KeyOk T kv.1 := by
  cases v with
  | dict d =>
    intro kv hkv
    obtain ⟨a, _, ha⟩ := mapM_mem_right (show d.mapM (readVar T) = .ok l from h) kv hkv
    unfold readVar at ha
    cases hr : T.read a.1 with
    | none => simp [hr] at ha
    | some k =>
      simp only [hr] at ha
      rw [bind_eq_ok] at ha
      obtain ⟨x, _, hx⟩ := ha
      simp at hx
      subst hx
      exact hT.again _ _ hr
  | _ => simp [readVars] at h

theorem readImpact_ok (hT : T.Lawful) {v : V} {i : Impact} (h : readImpact T v = .ok i) : ImpactOk T i := by
  cases v with
  | num x => simp [readImpact] at h; subst h; trivial
  | dict d =>
    simp only [readImpact] at h
    rw [bind_eq_ok] at h
    obtain ⟨l, hl, h⟩ := h
    simp at h; subst h
    exact readVars_ok hT hl
  | list l =>
    simp only [readImpact] at h
    rw [bind_eq_ok] at h
    obtain ⟨r, hr, h⟩ := h
    simp at h; subst h
    intro d hd
    obtain ⟨a, _, ha⟩ := mapM_mem_right hr d hd
    exact readVars_ok hT ha
  | none => simp [readImpact] at h
  | str s => simp [readImpact] at h

theorem loadImpacts_ok (hT : T.Lawful) {d : Dict V} {i : Dict Impact} (h : loadImpacts T d = .ok i) :
    ∀ kv ∈ i, ImpactOk T kv.2 := by
  unfold loadImpacts at h
  rw [bind_eq_ok] at h
  obtain ⟨v, _, h⟩ := h
  cases v with
  | dict l =>
    intro kv hkv
    obtain ⟨a, _, ha⟩ := mapM_mem_right (show l.mapM (readEntry T) = .ok i from h) kv hkv
    unfold readEntry at ha
    rw [bind_eq_ok] at ha
    obtain ⟨x, hx, ha⟩ := ha
    simp at ha; subst ha
    exact readImpact_ok hT hx
  | _ => simp at h

theorem loadSample_ok (hT : T.Lawful) {d : Dict V} {s : RawSample} (h : loadSample T d = .ok s) :
    SampleOk T s := by
  unfold loadSample at h
  simp only [bind_eq_ok] at h
  obtain ⟨v, _, nm, _, n, hn, nn, _, ny, _, im, him, h⟩ := h
  simp at h; subst h
  exact ⟨loadNorm_ok hn, loadImpacts_ok hT him⟩

/-- A dictionary of samples, keyed by their names. -/
def Keyed (d : Dict RawSample) : Prop := ∀ kv ∈ d, kv.1 = kv.2.name

theorem mem_set {V : Type} {d : Dict V} {k : String} {v : V} {x : String × V} (h : x ∈ d.set k v) :
    x ∈ d ∨ x = (k, v) := by
  induction d with
  | nil => right; simpa [Dict.set] using h
  | cons a d ih =>
    obtain ⟨k', w⟩ := a
    simp only [Dict.set] at h
    by_cases hk : k' = k
    · rw [if_pos hk] at h
      subst hk
      rcases List.mem_cons.1 h with rfl | h
      · right; rfl
      · left; simp [h]
    · rw [if_neg hk] at h
      rcases List.mem_cons.1 h with rfl | h
      · left; simp
      · rcases ih h with h | h
        · left; simp [h]
        · right; exact h

theorem loadSamples_ok (hT : T.Lawful) {l : List V} {acc r : Dict RawSample} (h : loadSamples T l acc = .ok r)
    (h1 : Keyed acc) (h2 : acc.keys.Nodup) (h3 : ∀ kv ∈ acc, SampleOk T kv.2) :
    Keyed r ∧ r.keys.Nodup ∧ ∀ kv ∈ r, SampleOk T kv.2 := by
  induction l generalizing acc with
  | nil => simp [loadSamples] at h; subst h; exact ⟨h1, h2, h3⟩
  | cons v vs ih =>
    simp only [loadSamples, bind_eq_ok] at h
    obtain ⟨d, _, s, hs, h⟩ := h
    refine ih h ?_ (Dict.nodup_keys_set _ _ _ h2) ?_
    · intro kv hkv
      rcases mem_set hkv with hkv | rfl
      · exact h1 kv hkv
      · rfl
    · intro kv hkv
      rcases mem_set hkv with hkv | rfl
      · exact h3 kv hkv
      · exact loadSample_ok hT hs

theorem keyed_values {r : Dict RawSample} (h : Keyed r) : r.values.map (·.name) = r.keys := by
  simp only [Dict.values, Dict.keys, List.map_map]
  exact List.map_congr_left (fun kv hkv => (h kv hkv).symm)

theorem loadCheckedChannel_ok (hT : T.Lawful) {v : V} {c : ChanDoc RawSample}
    (h : loadCheckedChannel T v = .ok c) :
    (c.samples.map (·.name)).Nodup ∧ (∀ s ∈ c.samples, SampleOk T s) ∧
      (∀ s ∈ c.samples, ∀ l, s.nominal_yields = some l → l.length = c.cls.nbins) := by
  unfold loadCheckedChannel at h
  rw [bind_eq_ok] at h
  obtain ⟨c', hc', h⟩ := h
  by_cases hz : sizesOk c'
  swap
  · simp [hz] at h
  simp [hz] at h
  subst h
  unfold loadChannel at hc'
  rw [bind_eq_ok] at hc'
  obtain ⟨d, _, hc⟩ := hc'
  by_cases hk : knownType (d.get? "type")
  swap
  · simp [hk] at hc
  simp only [hk, Bool.not_true, Bool.false_eq_true, if_false, bind_eq_ok] at hc
  obtain ⟨nmv, _, nm, _, sl, _, ss, hss, cls, _, hc⟩ := hc
  simp at hc
  obtain ⟨k1, k2, k3⟩ := loadSamples_ok hT hss (fun kv hkv => (by cases hkv)) (by simp [Dict.keys])
    (fun kv hkv => (by cases hkv))
  subst hc
  refine ⟨by rw [keyed_values k1]; exact k2, ?_, ?_⟩
  · intro s hs
    obtain ⟨kv, hkv, rfl⟩ := List.mem_map.1 hs
    exact k3 kv hkv
  · intro s hs l hl
    have := List.all_eq_true.1 hz s hs
    simpa [hl] using this

theorem loadDistinct_ok {α β : Type} [DecidableEq β] {load : V → Except PyErr α} {nm : α → β} {l : List V}
    {acc r : List α} (h : loadDistinct load nm l acc = .ok r) (hd : (acc.map nm).Nodup) :
    (r.map nm).Nodup ∧ ∀ a ∈ r, a ∈ acc ∨ ∃ v ∈ l, load v = .ok a := by
  induction l generalizing acc with
  | nil => simp [loadDistinct] at h; subst h; exact ⟨hd, fun a ha => Or.inl ha⟩
  | cons v vs ih =>
    simp only [loadDistinct, bind_eq_ok] at h
    obtain ⟨a, ha, h⟩ := h
    by_cases hn : nm a ∈ acc.map nm
    · simp [hn] at h
    · simp only [hn, if_false, bind_eq_ok] at h
      obtain ⟨i1, i2⟩ := ih h (by
        rw [List.map_append, List.nodup_append]
        refine ⟨hd, by simp, ?_⟩
        intro x hx y hy
        simp at hy
        subst hy
        exact fun e => hn (e ▸ hx))
      refine ⟨i1, fun b hb => ?_⟩
      rcases i2 b hb with hb | ⟨w, hw, hb⟩
      · rcases List.mem_append.1 hb with hb | hb
        · exact Or.inl hb
        · simp at hb; subst hb
          exact Or.inr ⟨v, by simp, ha⟩
      · exact Or.inr ⟨w, by simp [hw], hb⟩

theorem addAux_ok {aux : List (ModelAux ℝ)} (p : ModelNP ℝ) (h : (aux.map (·.name)).Nodup) :
    ((addAux aux p).map (·.name)).Nodup ∧ (∀ x ∈ aux.map (·.name), x ∈ (addAux aux p).map (·.name)) ∧
      ∀ a, p.aux_obs = some a → some a ∈ (addAux aux p).map (·.name) := by
  unfold addAux
  cases ha : p.aux_obs with
  | none => exact ⟨h, fun x hx => hx, fun a h => by cases h⟩
  | some a =>
    by_cases hm : some a ∈ aux.map (·.name)
    · dsimp only
      rw [if_pos hm]
      refine ⟨h, fun x hx => hx, ?_⟩
      intro b hb; cases hb; exact hm
    · dsimp only
      rw [if_neg hm]
      refine ⟨?_, ?_, ?_⟩
      · rw [List.map_append, List.nodup_append]
        refine ⟨h, by simp, ?_⟩
        intro x hx y hy
        simp at hy; subst hy
        exact fun e => hm (e ▸ hx)
      · intro x hx
        rw [List.map_append, List.mem_append]; exact Or.inl hx
      · intro b hb; cases hb; simp

theorem loadNPs_ok {l : List V} {aux aux' : List (ModelAux ℝ)} {acc r : List (ModelNP ℝ)}
    (h : loadNPs l aux acc = .ok (aux', r)) (hd : (acc.map (·.name)).Nodup) (hx : (aux.map (·.name)).Nodup)
    (hp : ∀ p ∈ acc, ∃ v, loadNP v = .ok p)
    (ha : ∀ p ∈ acc, ∀ a, p.aux_obs = some a → some a ∈ aux.map (·.name)) :
    (r.map (·.name)).Nodup ∧ (aux'.map (·.name)).Nodup ∧ (∀ p ∈ r, ∃ v, loadNP v = .ok p) ∧
      ∀ p ∈ r, ∀ a, p.aux_obs = some a → some a ∈ aux'.map (·.name) := by
  induction l generalizing aux acc with
  | nil =>
    simp [loadNPs] at h
    obtain ⟨rfl, rfl⟩ := h
    exact ⟨hd, hx, hp, ha⟩
  | cons v vs ih =>
    simp only [loadNPs, bind_eq_ok] at h
    obtain ⟨p, hv, h⟩ := h
    by_cases hn : p.name ∈ acc.map (·.name)
    · simp [hn] at h
    · simp only [hn, if_false, bind_eq_ok] at h
      obtain ⟨a1, a2, a3⟩ := addAux_ok p hx
      refine ih h ?_ a1 ?_ ?_
      · rw [List.map_append, List.nodup_append]
        refine ⟨hd, by simp, ?_⟩
        intro x hx y hy
        simp at hy; subst hy
        exact fun e => hn (e ▸ hx)
      · intro q hq
        rcases List.mem_append.1 hq with hq | hq
        · exact hp q hq
        · simp at hq; subst hq; exact ⟨v, hv⟩
      · intro q hq a hqa
        rcases List.mem_append.1 hq with hq | hq
        · exact a2 _ (ha q hq a hqa)
        · simp at hq; subst hq; exact a3 a hqa

/-- What loading guarantees. -/
structure Loaded (T : Texts) (d : ModelDoc RawSample) : Prop where
  np : ∀ p ∈ d.nps, p.variation ≠ none ∧ (p.constraint = none → p.aux_obs = none)
  aux_declared : ∀ p ∈ d.nps, ∀ a, p.aux_obs = some a → some a ∈ d.aux.map (·.name)
  poi_distinct : (d.pois.map (·.name)).Nodup
  aux_distinct : (d.aux.map (·.name)).Nodup
  np_distinct : (d.nps.map (·.name)).Nodup
  expr_distinct : (d.exprs.map (·.1)).Nodup
  chan_distinct : (d.channels.map (·.name)).Nodup
  sample_distinct : ∀ c ∈ d.channels, (c.samples.map (·.name)).Nodup
  samples : ∀ c ∈ d.channels, ∀ s ∈ c.samples, SampleOk T s
  sizes : ∀ c ∈ d.channels, ∀ s ∈ c.samples, ∀ l, s.nominal_yields = some l → l.length = c.cls.nbins

theorem loadDoc_ok (hT : T.Lawful) {D : Dict V} {d : ModelDoc RawSample} {e0 : Dict Expr}
    (he0 : (e0.map (·.1)).Nodup) (h : loadDoc T e0 D = .ok d) : Loaded T d := by
  unfold loadDoc at h
  simp only [bind_eq_ok] at h
  obtain ⟨mv, _, m, _, h⟩ := h
  by_cases h1 : (m.get? "POIs").isNone
  · simp [h1] at h
  by_cases h2 : (m.get? "channels").isNone
  · simp [h1, h2] at h
  simp only [h1, h2, Bool.false_eq_true, if_false, bind_eq_ok] at h
  obtain ⟨nm, _, ds, _, pl, _, pois, hpois, al, _, aux, haux, nl, _, an, hnps, el, _, exprs, hexprs,
    cl, _, chans, hch, h⟩ := h
  obtain ⟨aux', nps⟩ := an
  simp at h
  obtain ⟨p1, p2⟩ := loadDistinct_ok hpois (by simp)
  obtain ⟨a1, a2⟩ := loadDistinct_ok haux (by simp)
  obtain ⟨n1, n2, n3, n4⟩ := loadNPs_ok hnps (by simp) a1 (by simp) (by simp)
  obtain ⟨e1, e2⟩ := loadDistinct_ok hexprs he0
  obtain ⟨c1, c2⟩ := loadDistinct_ok hch (by simp)
  have hc : ∀ c ∈ chans, ∃ v, loadCheckedChannel T v = .ok c := by
    intro c hc
    rcases c2 c hc with hc | ⟨v, _, hv⟩
    · cases hc
    · exact ⟨v, hv⟩
  subst h
  refine ⟨?_, n4, p1, n2, n1, e1, c1, ?_, ?_, ?_⟩
  · intro p hp
    obtain ⟨v, hv⟩ := n3 p hp
    unfold loadNP at hv
    rw [bind_eq_ok] at hv
    obtain ⟨dd, _, hv⟩ := hv
    exact (Props.c02_np_roundtrip_iff p p).1 (Props.c02_np_loaded_roundtrip _ p p dd hv)
  · intro c hcc
    obtain ⟨v, hv⟩ := hc c hcc
    exact (loadCheckedChannel_ok hT hv).1
  · intro c hcc
    obtain ⟨v, hv⟩ := hc c hcc
    exact (loadCheckedChannel_ok hT hv).2.1
  · intro c hcc
    obtain ⟨v, hv⟩ := hc c hcc
    exact (loadCheckedChannel_ok hT hv).2.2

/-! ## `set_np_data` -/

/-- The step of the loop over NPs in `set_np_data`. -/
noncomputable def npStep (norm : Norm) (reals : Dict Expr) (vals : Dict ℝ) (fuel : Nat) (imps : Dict Impact)
    (par : NP ℝ) : Except PyErr (Dict Impact) :=
  match imps.get? par.name with
  | some _ => pure imps
  | none => do
    match ← norm.implicitImpact par reals vals fuel with
    | none => pure imps
    | some i => pure (imps.set par.name i)

theorem setNpData_eq (s : RawSample) (nps : List (NP ℝ)) (reals : Dict Expr) (vals : Dict ℝ) (fuel : Nat) :
    s.setNpData nps reals vals fuel = (do
      let imps ← nps.foldlM (npStep s.norm reals vals fuel) s.impacts
      let nn : ℝ := match s.nominal_norm with
        | some v => v
        | none => match s.norm.value (nps.map fun p => (p.name, p.nominal_value)) with
          | .ok v => v
          | .error _ => 1
      return ⟨s.name, s.norm, nn, s.nominal_yields.getD [nn], imps⟩) := rfl

theorem npStep_number (v : ℝ) (reals : Dict Expr) (vals : Dict ℝ) (fuel : Nat) (imps : Dict Impact)
    (par : NP ℝ) : npStep (.number v) reals vals fuel imps par = .ok imps := by
  unfold npStep
  cases imps.get? par.name <;> simp [Norm.implicitImpact]

theorem implicit_expr {e : String} {par : NP ℝ} {reals : Dict Expr} {vals : Dict ℝ} {fuel : Nat}
    {i : Option Impact} (h : (Norm.expr e).implicitImpact par reals vals fuel = .ok i) :
    ∃ rel, i = some (.common [(.num 1, rel), (.num (-1), -rel)]) := by
  unfold Norm.implicitImpact at h
  by_cases h0 : par.nominal_value ≠ 0
  · simp only [if_pos h0, bind_eq_ok] at h
    obtain ⟨g, _, r, _, h⟩ := h
    exact ⟨r, by simpa using h.symm⟩
  · simp only [if_neg h0, pure_ok, bind_ok] at h
    exact ⟨0, (Except.ok.inj (ε := PyErr) h).symm⟩

theorem implicit_keys (hT : T.Lawful) {norm : Norm} {par : NP ℝ} {reals : Dict Expr} {vals : Dict ℝ} {fuel : Nat}
    {i : Impact} (h : norm.implicitImpact par reals vals fuel = .ok (some i)) : ImpactOk T i := by
  cases norm with
  | number v => simp [Norm.implicitImpact] at h
  | expr e =>
    obtain ⟨rel, hrel⟩ := implicit_expr h
    cases hrel
    intro kv hkv
    simp at hkv
    rcases hkv with rfl | rfl
    · exact hT.up
    · exact hT.down

/-- All NPs have an impact. -/
def Covers (imps : Dict Impact) (nps : List (NP ℝ)) : Prop := ∀ p ∈ nps, ∃ i, imps.get? p.name = some i

theorem fold_ok (hT : T.Lawful) {norm : Norm} {reals : Dict Expr} {vals : Dict ℝ} {fuel : Nat} (l : List (NP ℝ))
    (imps r : Dict Impact) (h : l.foldlM (npStep norm reals vals fuel) imps = .ok r)
    (h1 : ∀ kv ∈ imps, ImpactOk T kv.2) :
    (∀ kv ∈ r, ImpactOk T kv.2) ∧ ((∃ v, norm = .number v) ∨ Covers r l) ∧
      ∀ k i, imps.get? k = some i → r.get? k = some i := by
  induction l generalizing imps with
  | nil =>
    simp at h; subst h
    exact ⟨h1, Or.inr (fun p hp => by cases hp), fun _ _ h => h⟩
  | cons p l ih =>
    rw [List.foldlM_cons, bind_eq_ok] at h
    obtain ⟨im, him, h⟩ := h
    have key : (∀ kv ∈ im, ImpactOk T kv.2) ∧ ((∃ v, norm = .number v) ∨ ∃ i, im.get? p.name = some i) ∧
        ∀ k i, imps.get? k = some i → im.get? k = some i := by
      unfold npStep at him
      cases hg : imps.get? p.name with
      | some i =>
        simp [hg] at him; subst him
        exact ⟨h1, Or.inr ⟨i, hg⟩, fun _ _ h => h⟩
      | none =>
        simp only [hg, bind_eq_ok] at him
        obtain ⟨oi, hoi, him⟩ := him
        cases oi with
        | none =>
          simp at him; subst him
          refine ⟨h1, Or.inl ?_, fun _ _ h => h⟩
          cases norm with
          | number v => exact ⟨v, rfl⟩
          | expr e =>
            obtain ⟨rel, hrel⟩ := implicit_expr hoi
            cases hrel
        | some i =>
          simp at him; subst him
          refine ⟨?_, Or.inr ⟨i, Dict.get?_set_self _ _ _⟩, ?_⟩
          · intro kv hkv
            rcases mem_set hkv with hkv | rfl
            · exact h1 kv hkv
            · exact implicit_keys hT hoi
          · intro k j hk
            rw [Dict.get?_set_ne _ _ (by rintro rfl; rw [hg] at hk; cases hk)]
            exact hk
    obtain ⟨k1, k2, k3⟩ := key
    obtain ⟨i1, i2, i3⟩ := ih im h k1
    refine ⟨i1, ?_, fun k i hk => i3 k i (k3 k i hk)⟩
    rcases i2 with i2 | i2
    · exact Or.inl i2
    rcases k2 with k2 | ⟨i, hi⟩
    · exact Or.inl k2
    refine Or.inr ?_
    intro q hq
    rcases List.mem_cons.1 hq with rfl | hq
    · exact ⟨i, i3 _ _ hi⟩
    · exact i2 q hq

theorem fold_covered {norm : Norm} {reals : Dict Expr} {vals : Dict ℝ} {fuel : Nat} (l : List (NP ℝ))
    (imps : Dict Impact) (h : (∃ v, norm = .number v) ∨ Covers imps l) :
    l.foldlM (npStep norm reals vals fuel) imps = .ok imps := by
  induction l with
  | nil => rfl
  | cons p l ih =>
    have h0 : npStep norm reals vals fuel imps p = .ok imps := by
      rcases h with ⟨v, rfl⟩ | h
      · exact npStep_number v reals vals fuel imps p
      · obtain ⟨i, hi⟩ := h p (by simp)
        simp [npStep, hi]
    rw [List.foldlM_cons, h0, bind_ok]
    exact ih (h.imp id (fun h q hq => h q (by simp [hq])))

theorem setNpData_raw (hT : T.Lawful) {s : RawSample} {nps : List (NP ℝ)} {reals : Dict Expr} {vals : Dict ℝ}
    {fuel : Nat} {s' : Sample} (h : s.setNpData nps reals vals fuel = .ok s') (hs : SampleOk T s) :
    SampleOk T (toRaw s') ∧ s'.name = s.name ∧
      ∀ reals' vals' fuel', (toRaw s').setNpData nps reals' vals' fuel' = .ok s' := by
  rw [setNpData_eq, bind_eq_ok] at h
  obtain ⟨im, him, h⟩ := h
  obtain ⟨f1, f2, f3⟩ := fold_ok hT nps s.impacts im him hs.impacts
  have h := Except.ok.inj (ε := PyErr) h
  subst h
  refine ⟨⟨hs.norm, f1⟩, rfl, ?_⟩
  intro reals' vals' fuel'
  rw [setNpData_eq]
  simp only [toRaw]
  rw [fold_covered nps im f2]
  rfl

theorem setUpChannel_raw (hT : T.Lawful) {c : ChanDoc RawSample} {nps : List (NP ℝ)} {reals : Dict Expr}
    {vals : Dict ℝ} {fuel : Nat} {c' : ChanDoc Sample} (h : setUpChannel nps reals vals fuel c = .ok c')
    (hs : ∀ s ∈ c.samples, SampleOk T s) :
    c'.name = c.name ∧ c'.cls = c.cls ∧ c'.samples.map (·.name) = c.samples.map (·.name) ∧
      (∀ s ∈ c'.samples, SampleOk T (toRaw s)) ∧
      ∀ reals' vals' fuel', setUpChannel nps reals' vals' fuel' (rawChannel c') = .ok c' := by
  unfold setUpChannel at h
  rw [bind_eq_ok] at h
  obtain ⟨ss, hss, h⟩ := h
  simp at h; subst h
  have key : ss.map (·.name) = c.samples.map (·.name) ∧ (∀ s ∈ ss, SampleOk T (toRaw s)) ∧
      ∀ reals' vals' fuel', (ss.map toRaw).mapM (fun s => s.setNpData nps reals' vals' fuel') = .ok ss := by
    rw [mapM_ok_iff] at hss
    generalize c.samples = l at hss hs
    induction hss with
    | nil => exact ⟨rfl, by simp, fun _ _ _ => rfl⟩
    | cons h1 _ ih =>
      obtain ⟨k1, k2, k3⟩ := setNpData_raw hT h1 (hs _ (by simp))
      obtain ⟨i1, i2, i3⟩ := ih (fun s hs' => hs s (by simp [hs']))
      refine ⟨by simp [k2, i1], ?_, ?_⟩
      · intro s hs
        rcases List.mem_cons.1 hs with rfl | hs
        · exact k1
        · exact i2 s hs
      · intro a b f
        rw [List.map_cons, List.mapM_cons, k3, bind_ok, i3]
        rfl
  refine ⟨rfl, rfl, key.1, key.2.1, ?_⟩
  intro a b f
  simp only [setUpChannel, rawChannel]
  rw [key.2.2 a b f]
  rfl

/-- Setting up again the samples of a model changes nothing; what remains to be asked for the model to be
saved faithfully. -/
theorem setUp_raw (hT : T.Lawful) {d : ModelDoc RawSample} {d' : ModelDoc Sample} (h : setUp d = .ok d')
    (hd : Loaded T d) :
    setUp (rawDoc d') = .ok d' ∧
    ((∀ p ∈ d'.pois, p.min_value ≠ none ∧ p.max_value ≠ none ∧ p.initial_value ≠ none) →
      (∀ c ∈ d'.channels, ∃ r, fillClass c.cls = .ok r) →
      (∀ c ∈ d'.channels, ∀ s ∈ c.samples, s.nominal_yields.length = c.cls.nbins) → Storable T (rawDoc d')) := by
  unfold setUp at h
  simp only [bind_eq_ok] at h
  obtain ⟨pois, hpois, nps, hnps, vals, hvals, chans, hch, h⟩ := h
  simp at h; subst h
  have key : chans.map (·.name) = d.channels.map (·.name) ∧
      (∀ c ∈ chans, (c.samples.map (·.name)).Nodup ∧ ∀ s ∈ c.samples, SampleOk T (toRaw s)) ∧
      ∀ reals' vals' fuel', (chans.map rawChannel).mapM (setUpChannel nps reals' vals' fuel') = .ok chans := by
    have h1 := hd.samples
    have h2 := hd.sample_distinct
    rw [mapM_ok_iff] at hch
    generalize d.channels = l at hch h1 h2
    clear hd
    generalize d.exprs.length + 1 = fuel at hch
    generalize refReals pois nps d.exprs = reals at hch
    induction hch with
    | nil => exact ⟨rfl, by simp, fun _ _ _ => rfl⟩
    | cons hc _ ih =>
      obtain ⟨k1, k2, k3, k4, k5⟩ := setUpChannel_raw hT hc (h1 _ (by simp))
      obtain ⟨i1, i2, i3⟩ := ih (fun c hc => h1 c (by simp [hc])) (fun c hc => h2 c (by simp [hc]))
      refine ⟨by simp [k1, i1], ?_, ?_⟩
      · intro c hc
        rcases List.mem_cons.1 hc with rfl | hc
        · exact ⟨by rw [k3]; exact h2 _ (by simp), k4⟩
        · exact i2 c hc
      · intro a b f
        rw [List.map_cons, List.mapM_cons, k5, bind_ok, i3]
        rfl
  obtain ⟨key1, key2, key3⟩ := key
  constructor
  · simp only [setUp, rawDoc]
    rw [hpois, bind_ok, hnps, bind_ok, hvals, bind_ok, key3]
    rfl
  · intro hp hg hy
    refine ⟨hp, hd.np, hd.aux_declared, hd.poi_distinct, hd.aux_distinct, hd.np_distinct, hd.expr_distinct, ?_, ?_⟩
    · show ((chans.map rawChannel).map (·.name)).Nodup
      rw [List.map_map, show ((fun x : ChanDoc RawSample => x.name) ∘ rawChannel) = (fun c : ChanDoc Sample => c.name)
        from rfl, key1]
      exact hd.chan_distinct
    · intro c hc
      obtain ⟨c', hc', rfl⟩ := List.mem_map.1 hc
      refine ⟨hg c' hc', ?_, ?_, ?_⟩
      · show ((c'.samples.map toRaw).map (·.name)).Nodup
        rw [List.map_map]
        exact (key2 c' hc').1
      · intro s hs
        obtain ⟨s', hs', rfl⟩ := List.mem_map.1 hs
        exact (key2 c' hc').2 s' hs'
      · intro s hs l hl
        obtain ⟨s', hs', rfl⟩ := List.mem_map.1 hs
        simp [toRaw] at hl
        subst hl
        exact hy c' hc' s' hs'

end Markup
end Verif
