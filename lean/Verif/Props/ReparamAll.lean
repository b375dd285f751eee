import Verif.Lemmas.ReparamMdl
import Verif.Lemmas.MarkupLoad
import Verif.Lemmas.Demo
/-!
# C66: a reparameterised model is the old model with its POIs expressed by the new ones

`m.reparam fuel rx newPois newExprs newNorms change remove values` is the model after the changes of `reparam_model.py`: add POIs, add
expressions, replace normalisations, remove POIs.  A removed POI for which an expression of the same name is added is *replaced*
by that expression; otherwise it is fixed to the value given for it.
-/
namespace Verif.Props
open Verif Mdl

section
variable {n P : Nat}

/-- The value at which a removed POI is fixed: the one given for it, or else its initial value (the changed one, if that is
changed). -/
def FixedAt (m : Mdl n P) (newPois change : List (String × ℝ)) (values : Dict ℝ) (k : String) (v : ℝ) : Prop :=
  values.get? k = some v ∨ (values.get? k = none ∧ (Dict.get? change k = some v ∨
    (Dict.get? change k = none ∧ ((∃ i, m.pois i = k ∧ m.poiInit i = v) ∨ (k, v) ∈ newPois))))

/-- `env` gives a value to every name, such that all definitions hold: NPs are at their nominal values, the removed POIs that are
not replaced are at the values given for them, and every expression, old or new, has the value of its formula. -/
structure Consistent (m : Mdl n P) (newPois : List (String × ℝ)) (newExprs : List (String × Expr)) (change : List (String × ℝ))
    (remove : List String) (values : Dict ℝ) (env : String → ℝ) : Prop where
  nps : ∀ p, env (m.nps p).name = (m.nps p).nominal_value
  fixed : ∀ k ∈ remove, k ∉ newExprs.map (·.1) → ∀ v, FixedAt m newPois change values k v → env k = v
  exprs : ∀ e ∈ m.exprs ++ newExprs, env e.1 = e.2.tval env e.1

/-- No product expression has a vanishing denominator. -/
def Finite (m : Mdl n P) (newExprs : List (String × Expr)) (env : String → ℝ) : Prop :=
  ∀ e ∈ m.exprs ++ newExprs, e.2.denOk env

/-- Conditions on the names.  The names of the model are distinct, its expressions refer to its parameters and to expressions
that come before; new names are distinct from those of the model, except that a removed POI can be replaced; replaced POIs are
not used by the expressions of the model (finding F76); new expressions refer to parameters that are not replaced and to
expressions that come before. -/
structure Admissible (m : Mdl n P) (newPois : List (String × ℝ)) (newExprs : List (String × Expr)) (remove : List String) :
    Prop where
  distinct : m.ctx.Distinct
  order : ∀ pre nm e post, m.exprs = pre ++ (nm, e) :: post → ∀ k ∈ e.deps nm,
    ((∃ i, m.pois i = k) ∧ k ∉ newExprs.map (·.1)) ∨ (∃ p, (m.nps p).name = k) ∨ k ∈ Dict.keys pre
  newOrder : ∀ pre nm e post, newExprs = pre ++ (nm, e) :: post → ∀ k ∈ e.deps nm,
    (((∃ i, m.pois i = k) ∨ k ∈ newPois.map (·.1)) ∧ k ∉ newExprs.map (·.1)) ∨ (∃ p, (m.nps p).name = k) ∨
      k ∈ m.exprs.keys ∨ k ∈ pre.map (·.1)
  freshPois : ∀ k ∈ newPois.map (·.1), (∀ p, (m.nps p).name ≠ k) ∧ k ∉ m.exprs.keys ∧ k ∉ newExprs.map (·.1)
  freshExprs : ∀ k ∈ newExprs.map (·.1), (∀ p, (m.nps p).name ≠ k) ∧ ∀ i, m.pois i = k → k ∈ remove

/-- The value of a normalisation. -/
noncomputable def normAt (env : String → ℝ) : Norm → ℝ
  | .number v => v
  | .expr e => if e = "" then 1 else env e

variable {fuel : Nat} {rx : String → String → Bool} {m : Mdl n P} {newPois : List (String × ℝ)}
  {newExprs : List (String × Expr)} {newNorms : List NewNorm} {change : List (String × ℝ)} {remove : List String} {values : Dict ℝ} {env : String → ℝ}
  {n' : Nat} {m' : Mdl n' P}

theorem evalOld (hA : Admissible m newPois newExprs remove) (hC : Consistent m newPois newExprs change remove values env)
    (hF : Finite m newExprs env) :
    ∃ d, m.ctx.realVals (fun i => env (m.pois i)) = .ok d ∧
      d.keys = List.ofFn m.pois ++ (List.ofFn fun p => (m.nps p).name) ++ m.exprs.keys ∧ ∀ k ∈ d.keys, d.get? k = some (env k) := by
  have hD : (List.ofFn m.pois ++ Dict.keys (List.ofFn fun p => ((m.nps p).name, (m.nps p).nominal_value)) ++ Dict.keys m.exprs).Nodup :=
    hA.distinct
  have hnk : Dict.keys (List.ofFn fun p => ((m.nps p).name, (m.nps p).nominal_value)) = List.ofFn fun p => (m.nps p).name := by
    simp only [Dict.keys, List.map_ofFn]; rfl
  have hpk : Dict.keys ((List.ofFn m.pois).map fun k => (k, env k)) = List.ofFn m.pois := by
    simp [Dict.keys, Function.comp_def]
  have hbk : (m.ctx.base (fun i => env (m.pois i))).keys = List.ofFn m.pois ++ List.ofFn fun p => (m.nps p).name := by
    rw [base_env, Dict.keys_append, hpk, hnk]
  obtain ⟨d, h1, h2, h3⟩ := ExprCtx.evalLoop_ok (env := env) m.exprs (m.ctx.base (fun i => env (m.pois i)))
    (by rw [hbk, ← hnk]; exact hD) (by
      intro k hk
      rw [base_env, Dict.get?_append, get?_map_names]
      by_cases hp : k ∈ List.ofFn m.pois
      · rw [if_pos hp]; rfl
      · rw [if_neg hp, Option.none_or]
        rw [hbk] at hk
        have hkn := (List.mem_append.1 hk).resolve_left hp
        obtain ⟨p, rfl⟩ := List.mem_ofFn.1 hkn
        have hnn := (List.nodup_append.1 (List.nodup_append.1 hD).1).2.1
        rw [hC.nps, Dict.get?_eq_some_iff _ hnn]
        exact List.mem_ofFn.2 ⟨p, rfl⟩) (by
      intro pre nm e post hs
      have hmem : (nm, e) ∈ m.exprs := by rw [hs]; simp
      refine ⟨?_, hF (nm, e) (List.mem_append_left _ hmem), hC.exprs (nm, e) (List.mem_append_left _ hmem)⟩
      intro k hk
      rw [hbk]
      rcases hA.order pre nm e post hs k hk with ⟨⟨i, rfl⟩, -⟩ | ⟨p, rfl⟩ | h
      · exact List.mem_append_left _ (List.mem_append_left _ (List.mem_ofFn.2 ⟨i, rfl⟩))
      · exact List.mem_append_left _ (List.mem_append_right _ (List.mem_ofFn.2 ⟨p, rfl⟩))
      · exact List.mem_append_right _ h)
  exact ⟨d, h1, by rw [h2, hbk], h3⟩

/-- The state of the model after the changes. -/
theorem reparam_state (hA : Admissible m newPois newExprs remove) (hC : Consistent m newPois newExprs change remove values env)
    (hF : Finite m newExprs env) (h : m.reparam fuel rx newPois newExprs newNorms change remove values = .ok ⟨n', m'⟩) :
    ∃ chans, updateNorms rx newNorms m.channels = .ok chans ∧ m'.channels = chans ∧ m'.nps = m.nps ∧
      List.ofFn m'.pois = (List.ofFn m.pois ++ newPois.map (·.1)).filter (fun k => k ∉ remove) ∧
      (∀ (A : Arrays) (θ : Fin P → ℝ) s b, m'.nbins = m.nbins → m'.cutKExp A θ s b = m.cutKExp A θ s b) ∧
      (∀ k ∈ m'.exprs.keys, k ∈ m.exprs.keys ∨ k ∈ newExprs.map (·.1)) ∧
      ∃ d', m'.ctx.realVals (fun i => env (m'.pois i)) = .ok d' ∧ (∀ k ∈ d'.keys, d'.get? k = some (env k)) ∧
        ∀ k ∈ normNames chans, (∃ i, m.pois i = k) ∨ k ∈ newPois.map (·.1) ∨ (∃ p, (m.nps p).name = k) ∨
          k ∈ m.exprs.keys ∨ k ∈ newExprs.map (·.1) → k ∈ d'.keys := by
  unfold reparam at h
  obtain ⟨pois, hp, h⟩ := bind_eq_ok.1 h
  obtain ⟨exprs, he, h⟩ := bind_eq_ok.1 h
  obtain ⟨chans, hch, h⟩ := bind_eq_ok.1 h
  dsimp only at h
  obtain ⟨vals, hvals, h⟩ := bind_eq_ok.1 h
  have hD : (List.ofFn m.pois ++ Dict.keys (List.ofFn fun p => ((m.nps p).name, (m.nps p).nominal_value)) ++ Dict.keys m.exprs).Nodup :=
    hA.distinct
  have hnk : Dict.keys (List.ofFn fun p => ((m.nps p).name, (m.nps p).nominal_value)) = List.ofFn fun p => (m.nps p).name := by
    simp only [Dict.keys, List.map_ofFn]; rfl
  obtain ⟨hp1, hp2⟩ := addPois_ok hp (by rw [poiList_names]; exact (List.nodup_append.1 (List.nodup_append.1 hD).1).1)
  obtain ⟨he1, he2⟩ := addExprs_ok he (List.nodup_append.1 hD).2.1
  set M : Mdl (changePois pois change).length P := { m.withPois (changePois pois change) with exprs := exprs, channels := chans } with hM
  have hMp : List.ofFn M.pois = pois.map (·.1) := (ofFn_withPois m _).trans (changePois_names _ _)
  have hMn : pois.map (·.1) = List.ofFn m.pois ++ newPois.map (·.1) := by rw [hp1, List.map_append, poiList_names]
  have hMk : Dict.keys exprs = m.exprs.keys ++ newExprs.map (·.1) := by rw [he1, Dict.keys_append]; rfl
  obtain ⟨r, hr, hr1, hr2, hr3, hr4, hr5⟩ := removePois_ok (m := M) (m' := m') h (fun k => k ∉ remove)
  have hseen : ∀ k, k ∈ M.poiModel.seen ↔ ((∃ i, m.pois i = k) ∨ k ∈ newPois.map (·.1)) ∧ k ∉ m.exprs.keys ∧ k ∉ newExprs.map (·.1) := by
    intro k
    have e1 : M.poiModel.pois = List.ofFn m.pois ++ newPois.map (·.1) := hMp.trans hMn
    have e2 : M.poiModel.exprs.keys = m.exprs.keys ++ newExprs.map (·.1) := hMk
    unfold PoiModel.seen
    rw [List.mem_filter, e1, e2]
    simp only [List.mem_append, List.mem_ofFn, decide_eq_true_eq, not_or]
  have hxp : ∀ i, m.pois i ∉ m.exprs.keys := fun i hi =>
    (List.nodup_append.1 hD).2.2 (m.pois i) (List.mem_append_left _ (List.mem_ofFn.2 ⟨i, rfl⟩)) _ hi rfl
  have hxn : ∀ p, (m.nps p).name ∉ m.exprs.keys := fun p hi =>
    (List.nodup_append.1 hD).2.2 (m.nps p).name
      (List.mem_append_right _ (by rw [hnk]; exact List.mem_ofFn.2 ⟨p, rfl⟩)) _ hi rfl
  have hpp : ∀ i p, m.pois i ≠ (m.nps p).name := fun i p =>
    (List.nodup_append.1 (List.nodup_append.1 hD).1).2.2 (m.pois i) (List.mem_ofFn.2 ⟨i, rfl⟩) _
      (by rw [hnk]; exact List.mem_ofFn.2 ⟨p, rfl⟩)
  obtain ⟨f1, f2, f3, f4, d', f5, f6, f7, f8⟩ := PoiModel.removePois_eval (env := env) (m := M.poiModel) (m' := r) (names := remove)
    (by rw [show M.poiModel.pois = pois.map (·.1) from hMp]; exact hp2)
    (by
      rw [List.nodup_append, List.nodup_append]
      refine ⟨⟨?_, ?_, ?_⟩, ?_, ?_⟩
      · refine List.Nodup.filter _ ?_
        rw [show M.poiModel.pois = pois.map (·.1) from hMp]; exact hp2
      · exact (List.nodup_append.1 (List.nodup_append.1 hD).1).2.1
      · intro a ha b hb hab
        subst hab
        have hb' : a ∈ List.ofFn fun p => (m.nps p).name := by rw [← hnk]; exact hb
        obtain ⟨p, rfl⟩ := List.mem_ofFn.1 hb'
        rcases ((hseen _).1 ha).1 with ⟨i, hi⟩ | hi
        · exact hpp i p hi
        · exact (hA.freshPois _ hi).1 p rfl
      · exact he2
      · intro a ha b hb hab
        subst hab
        have hb' : a ∈ m.exprs.keys ++ newExprs.map (·.1) := by rw [← hMk]; exact hb
        rcases List.mem_append.1 ha with ha | ha
        · have := ((hseen _).1 ha).2
          rcases List.mem_append.1 hb' with h' | h'
          · exact this.1 h'
          · exact this.2 h'
        · have ha' : a ∈ List.ofFn fun p => (m.nps p).name := by rw [← hnk]; exact ha
          obtain ⟨p, rfl⟩ := List.mem_ofFn.1 ha'
          rcases List.mem_append.1 hb' with h' | h'
          · exact hxn p h'
          · exact (hA.freshExprs _ h').1 p rfl)
    (by
      intro k hk hkx
      have hk' : k ∈ List.ofFn m.pois ++ newPois.map (·.1) := by rw [← hMn, ← hMp]; exact hk
      have hkx' : k ∈ m.exprs.keys ++ newExprs.map (·.1) := by rw [← hMk]; exact hkx
      rcases List.mem_append.1 hk' with h1 | h1
      · obtain ⟨i, rfl⟩ := List.mem_ofFn.1 h1
        rcases List.mem_append.1 hkx' with h2 | h2
        · exact absurd h2 (hxp i)
        · exact (hA.freshExprs _ h2).2 i rfl
      · obtain ⟨-, g2, g3⟩ := hA.freshPois k h1
        rcases List.mem_append.1 hkx' with h2 | h2
        · exact absurd h2 g2
        · exact absurd h2 g3)
    (by
      intro pre nm e post hs k hk
      have hs' : m.exprs ++ newExprs = pre ++ (nm, e) :: post := by rw [← he1]; exact hs
      have hnpk : Dict.keys M.poiModel.nps = List.ofFn fun p => (m.nps p).name := hnk
      rw [hnpk]
      have hcase : ∃ pre', (m.exprs = pre ++ (nm, e) :: pre') ∨
          (pre = m.exprs ++ pre' ∧ newExprs = pre' ++ (nm, e) :: post) := by
        rcases List.append_eq_append_iff.1 hs' with ⟨a, h1, h2⟩ | ⟨a, h1, h2⟩
        · exact ⟨a, Or.inr ⟨h1, h2⟩⟩
        · cases a with
          | nil => exact ⟨[], Or.inr ⟨by simpa using h1.symm, by simpa using h2.symm⟩⟩
          | cons x a =>
            simp only [List.cons_append, List.cons.injEq] at h2
            rw [← h2.1] at h1
            exact ⟨a, Or.inl h1⟩
      obtain ⟨pre', h1 | ⟨h1, h2⟩⟩ := hcase
      · rcases hA.order pre nm e pre' h1 k hk with ⟨⟨i, rfl⟩, hnx⟩ | ⟨p, rfl⟩ | hpre
        · exact List.mem_append_left _ (List.mem_append_left _ ((hseen _).2 ⟨Or.inl ⟨i, rfl⟩, hxp i, hnx⟩))
        · exact List.mem_append_left _ (List.mem_append_right _ (List.mem_ofFn.2 ⟨p, rfl⟩))
        · exact List.mem_append_right _ hpre
      · rcases hA.newOrder pre' nm e post h2 k hk with ⟨hor, hnx⟩ | ⟨p, rfl⟩ | hpre | hpre
        · refine List.mem_append_left _ (List.mem_append_left _ ((hseen _).2 ⟨hor, ?_, hnx⟩))
          rcases hor with ⟨i, rfl⟩ | hor
          · exact hxp i
          · exact (hA.freshPois k hor).2.1
        · exact List.mem_append_left _ (List.mem_append_right _ (List.mem_ofFn.2 ⟨p, rfl⟩))
        · refine List.mem_append_right _ ?_
          rw [h1, Dict.keys_append]; exact List.mem_append_left _ hpre
        · refine List.mem_append_right _ ?_
          rw [h1, Dict.keys_append]; exact List.mem_append_right _ hpre)
    (by
      intro nm e hg
      have hmem : (nm, e) ∈ exprs := (Dict.get?_eq_some_iff _ he2 nm e).1 hg
      rw [he1] at hmem
      exact ⟨hF _ hmem, hC.exprs _ hmem⟩)
    (by
      intro kv hkv
      obtain ⟨p, rfl⟩ := List.mem_ofFn.1 hkv
      exact hC.nps p)
    (by
      intro k hk hx v hv
      refine hC.fixed k hk (fun hn => hx ?_) v ?_
      · have : k ∈ Dict.keys exprs := by rw [hMk]; exact List.mem_append_right _ hn
        exact this
      · rcases fillValues_ok hvals k v hv with h1 | ⟨h1, h2⟩
        · exact Or.inl h1
        · refine Or.inr ⟨h1, ?_⟩
          rw [get?_changePois] at h2
          obtain ⟨w, h3, h4⟩ := Option.map_eq_some_iff.1 h2
          cases hcg : Dict.get? change k with
          | some u => rw [hcg] at h4; exact Or.inl (by rw [← h4]; rfl)
          | none =>
            rw [hcg] at h4
            refine Or.inr ⟨rfl, ?_⟩
            have hw : w = v := h4
            subst hw
            rw [Dict.get?_eq_some_iff _ hp2, hp1] at h3
            rcases List.mem_append.1 h3 with h3 | h3
            · obtain ⟨i, hi⟩ := List.mem_ofFn.1 h3
              simp only [Prod.mk.injEq] at hi
              exact Or.inl ⟨i, hi⟩
            · exact Or.inr h3)
    hr
  have hpois : List.ofFn m'.pois = r.pois := hr1 f1
  refine ⟨chans, hch, hr4, hr2, ?_, ?_, ?_, d', ?_, f7, ?_⟩
  · rw [hpois, f1]
    have : M.poiModel.pois = List.ofFn m.pois ++ newPois.map (·.1) := hMp.trans hMn
    rw [this]
  · intro A θ s b hnb
    rw [hr5]
    have hb : M.nbins = m.nbins := by
      rw [← hnb]
      rw [nbins_eq_sum, nbins_eq_sum, hr4]
    simp only [cutKExp, kExp, delta, hb]
    rfl
  · intro k hk
    rw [hr3] at hk
    have := f4 k hk
    have : k ∈ Dict.keys exprs := this
    rw [hMk] at this
    exact List.mem_append.1 this
  · have e1 : m'.ctx.realVals (fun i => env (m'.pois i)) = ExprCtx.evalLoop m'.exprs (m'.ctx.base (fun i => env (m'.pois i))) := rfl
    have e2 : r.realVals env = ExprCtx.evalLoop r.exprs (r.ctx.base (fun i => env (r.pois.get i))) := rfl
    rw [e1, base_env, hpois, hr3, hr2]
    rw [e2, base_eq, f2] at f5
    exact f5
  · intro k hk hor
    refine f8 k hk ?_
    have hnpk : Dict.keys M.poiModel.nps = List.ofFn fun p => (m.nps p).name := hnk
    have hek : Dict.keys M.poiModel.exprs = m.exprs.keys ++ newExprs.map (·.1) := hMk
    rw [hnpk, hek]
    by_cases hin : k ∈ m.exprs.keys ++ newExprs.map (·.1)
    · exact List.mem_append_right _ hin
    · have hin2 := hin
      simp only [List.mem_append, not_or] at hin2
      rcases hor with h1 | h1 | ⟨p, rfl⟩ | h1 | h1
      · exact List.mem_append_left _ (List.mem_append_left _ ((hseen _).2 ⟨Or.inl h1, hin2⟩))
      · exact List.mem_append_left _ (List.mem_append_left _ ((hseen _).2 ⟨Or.inr h1, hin2⟩))
      · exact List.mem_append_left _ (List.mem_append_right _ (List.mem_ofFn.2 ⟨p, rfl⟩))
      · exact absurd h1 hin2.1
      · exact absurd h1 hin2.2

theorem names_of_keys (hA : Admissible m newPois newExprs remove) {d : Dict ℝ}
    (hd : d.keys = List.ofFn m.pois ++ (List.ofFn fun p => (m.nps p).name) ++ m.exprs.keys) {k : String} (hk : k ∈ d.keys) :
    (∃ i, m.pois i = k) ∨ k ∈ newPois.map (·.1) ∨ (∃ p, (m.nps p).name = k) ∨ k ∈ m.exprs.keys ∨ k ∈ newExprs.map (·.1) := by
  rw [hd] at hk
  rcases List.mem_append.1 hk with h | h
  · rcases List.mem_append.1 h with h | h
    · exact Or.inl (List.mem_ofFn.1 h)
    · exact Or.inr (Or.inr (Or.inl (List.mem_ofFn.1 h)))
  · exact Or.inr (Or.inr (Or.inr (Or.inl h)))

theorem updateNorms_none {channels : List Channel}
    (h : ∀ c ∈ channels, ∀ s ∈ c.samples, matching rx newNorms c.name s.name = []) :
    updateNorms rx newNorms channels = .ok channels := by
  unfold updateNorms
  have := mapM_map_ok (l := channels) (g := id) (f := fun c => do
    let ss ← c.samples.mapM (updateSample rx newNorms c.name)
    return { c with samples := ss }) (by
      intro c hc
      have h2 : c.samples.mapM (updateSample rx newNorms c.name) = .ok (c.samples.map id) := by
        refine mapM_map_ok ?_
        intro s hs
        simp only [updateSample, h c hc s hs, id]
      simp only [h2, bind_ok, List.map_id, pure_ok, id])
  rw [this, List.map_id]

/-- C66: where no normalisation is replaced, the new model predicts for every sample and bin what the old model predicts with its
POIs at the values that the definitions give them.  (`env` is any consistent set of values: `c66_every_point`.) -/
theorem c66_predictions (hA : Admissible m newPois newExprs remove) (hC : Consistent m newPois newExprs change remove values env)
    (hF : Finite m newExprs env) (h : m.reparam fuel rx newPois newExprs newNorms change remove values = .ok ⟨n', m'⟩)
    (hnn : ∀ c ∈ m.channels, ∀ s ∈ c.samples, matching rx newNorms c.name s.name = [])
    {A : Arrays} {θ : Fin P → ℝ} {ne} (h0 : m.nExp A (fun i => env (m.pois i)) θ = .ok ne) :
    m'.nExp A (fun i => env (m'.pois i)) θ = .ok ne := by
  obtain ⟨chans, hch, hc, -, -, hk, -, d', hd', hv', hn'⟩ := reparam_state hA hC hF h
  rw [updateNorms_none hnn] at hch
  obtain rfl := Except.ok.inj hch
  obtain ⟨d, hd, hdk, hv⟩ := evalOld hA hC hF
  have hnb : m'.nbins = m.nbins := by rw [nbins_eq_sum, nbins_eq_sum, hc]
  simp only [nExp, hd, bind_ok] at h0
  obtain ⟨rows, hr, h0⟩ := bind_eq_ok.1 h0
  simp only [pure_ok, Except.ok.injEq] at h0
  subst h0
  have hrows : m'.stackRows (fun s => s.yields d') = .ok rows := by
    rw [← hr]
    refine stackRows_congr hc ?_
    intro ch hch smp hsmp
    obtain ⟨y, hy⟩ := stackRows_inv m _ hr ch hch smp hsmp
    obtain ⟨-, hval⟩ := (yields_inv hy).2
    unfold Sample.yields Sample.normalization
    have : smp.norm.value d' = smp.norm.value d := by
      rw [hval]
      cases hnorm : smp.norm with
      | number w => rw [hnorm] at hval; exact hval
      | expr e =>
        rw [hnorm] at hval
        simp only [Norm.value] at hval ⊢
        by_cases he : e = ""
        · rw [if_pos he] at hval ⊢; exact hval
        · rw [if_neg he] at hval ⊢
          rw [Dict.getItem_ok] at hval ⊢
          have hmem : e ∈ d.keys := (Dict.mem_keys_iff _ _).2 ⟨_, hval⟩
          have hnm : e ∈ normNames m.channels := by
            refine List.mem_flatMap.2 ⟨ch, hch, List.mem_filterMap.2 ⟨smp, hsmp, ?_⟩⟩
            rw [hnorm]
          rw [hv' e (hn' e hnm (names_of_keys hA hdk hmem)), ← hv e hmem, hval]
    rw [this]
  simp only [nExp, hd', bind_ok, hrows, pure_ok]
  congr 1
  funext s b
  rw [hk A θ s b hnb]

/-- C66: the same for the likelihood (without offset), for all data, floors and values of the NPs. -/
theorem c66_nll (hA : Admissible m newPois newExprs remove) (hC : Consistent m newPois newExprs change remove values env)
    (hF : Finite m newExprs env) (h : m.reparam fuel rx newPois newExprs newNorms change remove values = .ok ⟨n', m'⟩)
    (hnn : ∀ c ∈ m.channels, ∀ s ∈ c.samples, matching rx newNorms c.name s.name = [])
    {A : Arrays} {θ : Fin P → ℝ} {ne} (h0 : m.nExp A (fun i => env (m.pois i)) θ = .ok ne) (d : DataV P)
    (floor : Option ℝ) (noConstraints : Bool) :
    m'.nll A (fun i => env (m'.pois i)) θ d false floor noConstraints =
      m.nll A (fun i => env (m.pois i)) θ d false floor noConstraints := by
  have h1 := c66_predictions hA hC hF h hnn h0
  obtain ⟨chans, hch, hc, hnp, -⟩ := reparam_state hA hC hF h
  rw [updateNorms_none hnn] at hch
  obtain rfl := Except.ok.inj hch
  have hP : m'.nbinsPoisson = m.nbinsPoisson := by unfold nbinsPoisson; rw [hc]
  have hG : m'.nbinsGaussian = m.nbinsGaussian := by unfold nbinsGaussian; rw [hc]
  have hs : m'.chanState = m.chanState := by unfold chanState; rw [hc, hP]
  have ht : m'.totBinExp A (fun i => env (m'.pois i)) θ floor = m.totBinExp A (fun i => env (m.pois i)) θ floor := by
    simp only [totBinExp, h1, h0, bind_ok, maxSamples, hs, hP]
  have hq : ∀ u v, m'.quad u v = m.quad u v := by
    intro u v
    simp only [quad, hG, poiHessian, hs]
  have hct : m'.constraintTerm θ d = m.constraintTerm θ d := by
    simp only [constraintTerm, constraintHessian, hnp]
  simp only [nll, ht, hP, hq, hct, Bool.not_false, if_true]

/-- C66: which normalisations are replaced.  The channels and samples stay the same, except that a sample whose name and channel
match a specification gets the new normalisation; the update succeeds only if no sample matches two of them. -/
theorem c66_norms (hA : Admissible m newPois newExprs remove) (hC : Consistent m newPois newExprs change remove values env)
    (hF : Finite m newExprs env) (h : m.reparam fuel rx newPois newExprs newNorms change remove values = .ok ⟨n', m'⟩) :
    List.Forall₂ (fun c c' : Channel => ∃ ss, c' = { c with samples := ss } ∧
      List.Forall₂ (fun s s' : Sample => ∃ nm, s' = { s with norm := nm } ∧
        ((nm = s.norm ∧ ∀ e ∈ newNorms, ¬ (rx e.channel c.name = true ∧ rx e.sample s.name = true)) ∨
        ∃ e ∈ newNorms, nm = e.norm ∧ rx e.channel c.name = true ∧ rx e.sample s.name = true)) c.samples ss)
      m.channels m'.channels := by
  obtain ⟨chans, hch, hc, -⟩ := reparam_state hA hC hF h
  rw [hc]
  unfold updateNorms at hch
  refine (mapM_ok_iff.1 hch).imp ?_
  intro c c' h1
  obtain ⟨ss, h2, h3⟩ := bind_eq_ok.1 h1
  simp only [pure_ok, Except.ok.injEq] at h3
  refine ⟨ss, h3.symm, (mapM_ok_iff.1 h2).imp ?_⟩
  intro s s' h4
  unfold updateSample at h4
  have hmem : ∀ e, e ∈ matching rx newNorms c.name s.name ↔ e ∈ newNorms ∧ rx e.channel c.name = true ∧ rx e.sample s.name = true := by
    intro e
    simp [matching]
  match hmt : matching rx newNorms c.name s.name with
  | [] =>
    rw [hmt] at h4
    simp only [Except.ok.injEq] at h4
    refine ⟨s.norm, h4.symm, Or.inl ⟨rfl, ?_⟩⟩
    intro e he hh
    have := (hmem e).2 ⟨he, hh⟩
    rw [hmt] at this; cases this
  | [e] =>
    rw [hmt] at h4
    simp only [Except.ok.injEq] at h4
    have := (hmem e).1 (by rw [hmt]; simp)
    exact ⟨e.norm, h4.symm, Or.inr ⟨e, this.1, rfl, this.2⟩⟩
  | _ :: _ :: _ =>
    rw [hmt] at h4
    simp at h4

/-- C66: the yields of all samples, including those with a new normalisation: the value of the normalisation relative to the
nominal normalisation of the sample, times its nominal yield and the effect of the NPs.  (`wf`: the normalisations are
parameters or expressions, old or new.) -/
theorem c66_yields (hA : Admissible m newPois newExprs remove) (hC : Consistent m newPois newExprs change remove values env)
    (hF : Finite m newExprs env) (h : m.reparam fuel rx newPois newExprs newNorms change remove values = .ok ⟨n', m'⟩)
    (hsh : m.YieldsShaped) (hnz : ∀ c ∈ m.channels, ∀ s ∈ c.samples, s.nominal_norm ≠ 0)
    (wf : ∀ c ∈ m'.channels, ∀ s ∈ c.samples, ∀ k, s.norm = .expr k → k ≠ "" →
      (∃ i, m.pois i = k) ∨ k ∈ newPois.map (·.1) ∨ (∃ p, (m.nps p).name = k) ∨ k ∈ m.exprs.keys ∨ k ∈ newExprs.map (·.1))
    (A : Arrays) (θ : Fin P → ℝ) :
    ∃ ne, m'.nExp A (fun i => env (m'.pois i)) θ = .ok ne ∧ ∀ pre c post, m'.channels = pre ++ c :: post →
      ∀ i s, c.samples[i]? = some s → ∀ b < c.nbins, ne i ((pre.map (·.nbins)).sum + b) =
        normAt env s.norm / s.nominal_norm * s.nominal_yields.getD b 0 * m.cutKExp A θ i ((pre.map (·.nbins)).sum + b) := by
  have hN := c66_norms hA hC hF h
  obtain ⟨chans, hch, hc, -, -, hk, -, d', hd', hv', hn'⟩ := reparam_state hA hC hF h
  have hval : ∀ c ∈ m'.channels, ∀ s ∈ c.samples, s.norm.value d' = .ok (normAt env s.norm) := by
    intro c hcm s hs
    cases hnorm : s.norm with
    | number w => rfl
    | expr k =>
      simp only [Norm.value, normAt]
      by_cases he : k = ""
      · rw [if_pos he, if_pos he]
      · rw [if_neg he, if_neg he, Dict.getItem_ok]
        refine hv' k (hn' k ?_ (wf c hcm s hs k hnorm he))
        rw [← hc]
        refine List.mem_flatMap.2 ⟨c, hcm, List.mem_filterMap.2 ⟨s, hs, ?_⟩⟩
        rw [hnorm]
  have hold : ∀ c' ∈ m'.channels, ∀ s' ∈ c'.samples, ∃ c ∈ m.channels, ∃ s ∈ c.samples, c'.nbins = c.nbins ∧
      s'.nominal_yields = s.nominal_yields ∧ s'.nominal_norm = s.nominal_norm := by
    intro c' hc' s' hs'
    obtain ⟨c, hcm, ss, rfl, hf⟩ := Markup.forall₂_mem_right hN c' hc'
    obtain ⟨s, hsm, nm, rfl, -⟩ := Markup.forall₂_mem_right hf s' hs'
    exact ⟨c, hcm, s, hsm, rfl, rfl, rfl⟩
  have hsh' : m'.YieldsShaped := by
    intro c' hc' s' hs'
    obtain ⟨c, hcm, s, hsm, e1, e2, -⟩ := hold c' hc' s' hs'
    rw [e1, e2]; exact hsh c hcm s hsm
  have hnb : m'.nbins = m.nbins := by
    rw [nbins_eq_sum, nbins_eq_sum]
    congr 1
    have : ∀ (l l' : List Channel), List.Forall₂ (fun c c' : Channel => c'.nbins = c.nbins) l l' →
        l'.map (·.nbins) = l.map (·.nbins) := by
      intro l l' hf
      induction hf with
      | nil => rfl
      | cons h1 _ ih => simp [h1, ih]
    refine this _ _ (hN.imp ?_)
    rintro c c' ⟨ss, rfl, -⟩
    rfl
  have hcomp : m'.Computable d' := by
    refine ⟨shapeOk_of_yieldsShaped hsh', ?_, fun c hcm s hs => ⟨_, hval c hcm s hs⟩⟩
    intro c' hc' s' hs'
    obtain ⟨c, hcm, s, hsm, -, -, e3⟩ := hold c' hc' s' hs'
    rw [e3]; exact hnz c hcm s hsm
  obtain ⟨ne, hne, -⟩ := nExp_ok A θ hd' hcomp
  refine ⟨ne, hne, ?_⟩
  intro pre c post hsplit i s hs b hb
  rw [nExp_at hsh' hne hd' hsplit hs hb (hval c (by rw [hsplit]; simp) s (List.mem_of_getElem? hs)), hk A θ _ _ hnb]

theorem fixedAt_unique (hA : Admissible m newPois newExprs remove) (hn : (List.ofFn m.pois ++ newPois.map (·.1)).Nodup)
    {k : String} {v w : ℝ} (hv : FixedAt m newPois change values k v) (hw : FixedAt m newPois change values k w) : v = w := by
  have hd : Dict.keys (m.poiList ++ newPois) = List.ofFn m.pois ++ newPois.map (·.1) := by
    rw [Dict.keys_append, ← poiList_names]; rfl
  have hi : ∀ u, ((∃ i, m.pois i = k ∧ m.poiInit i = u) ∨ (k, u) ∈ newPois) → Dict.get? (m.poiList ++ newPois) k = some u := by
    intro u hu
    rw [Dict.get?_eq_some_iff _ (by rw [hd]; exact hn)]
    rcases hu with ⟨i, h1, h2⟩ | hu
    · exact List.mem_append_left _ (List.mem_ofFn.2 ⟨i, by rw [h1, h2]⟩)
    · exact List.mem_append_right _ hu
  rcases hv with h1 | ⟨h1, h2 | ⟨h2, h3⟩⟩ <;> rcases hw with g1 | ⟨g1, g2 | ⟨g2, g3⟩⟩ <;>
    first
    | exact Option.some.inj (h1.symm.trans g1)
    | exact Option.some.inj (h2.symm.trans g2)
    | exact Option.some.inj ((hi _ h3).symm.trans (hi _ g3))
    | exact absurd (h1.symm.trans g1) (Option.some_ne_none _)
    | exact absurd (g1.symm.trans h1) (Option.some_ne_none _)
    | exact absurd (h2.symm.trans g2) (Option.some_ne_none _)
    | exact absurd (g2.symm.trans h2) (Option.some_ne_none _)

/-- Values for expressions that are listed in order of dependence. -/
theorem solve_exprs (es : Dict Expr) : ∀ (base : List String) (env0 : String → ℝ), PoiModel.Ordered base es →
    (∀ k ∈ base, k ∉ Dict.keys es) → (Dict.keys es).Nodup →
    ∃ env, (∀ k, k ∉ Dict.keys es → env k = env0 k) ∧ ∀ e ∈ es, env e.1 = e.2.tval env e.1 := by
  induction es with
  | nil => intro base env0 _ _ _; exact ⟨env0, fun _ _ => rfl, by simp⟩
  | cons a es ih =>
    intro base env0 hO hdis hn
    obtain ⟨nm, e⟩ := a
    have hkk : Dict.keys ((nm, e) :: es) = nm :: Dict.keys es := rfl
    rw [hkk] at hn hdis
    have hdeps : ∀ k ∈ e.deps nm, k ∈ base := by
      intro k hk
      have := hO [] nm e es rfl k hk
      simpa [Dict.keys] using this
    have hnb : nm ∉ base := fun hb => hdis nm hb (by simp)
    have hnes : nm ∉ Dict.keys es := (List.nodup_cons.1 hn).1
    obtain ⟨env, h1, h2⟩ := ih (base ++ [nm]) (Function.update env0 nm (e.tval env0 nm)) (by
      intro pre nm' e' post hs k hk
      have := hO ((nm, e) :: pre) nm' e' post (by rw [hs]; rfl) k hk
      simpa [Dict.keys] using this) (by
      intro k hk hke
      rcases List.mem_append.1 hk with h | h
      · exact hdis k h (List.mem_cons_of_mem _ hke)
      · rw [List.mem_singleton] at h; subst h; exact hnes hke) (List.nodup_cons.1 hn).2
    refine ⟨env, ?_, ?_⟩
    · intro k hk
      rw [hkk, List.mem_cons, not_or] at hk
      rw [h1 k hk.2, Function.update_of_ne hk.1]
    · intro x hx
      rcases List.mem_cons.1 hx with rfl | hx
      · dsimp only
        rw [h1 nm hnes, Function.update_self]
        refine (ExprCtx.tval_congr ?_).1
        intro k hk
        have hkb := hdeps k hk
        have hke : k ∉ Dict.keys es := fun hh => hdis k hkb (by simp [hh])
        have hkn : k ≠ nm := fun hh => hnb (hh ▸ hkb)
        rw [h1 k hke, Function.update_of_ne hkn]
      · exact h2 x hx

open Classical in
/-- C66: there is a consistent set of values for all values of the parameters that are not replaced: the new model is defined at
every point (up to vanishing denominators). -/
theorem c66_every_point (hA : Admissible m newPois newExprs remove) (hk : (newExprs.map (·.1)).Nodup)
    (hk' : ∀ k ∈ newExprs.map (·.1), k ∉ m.exprs.keys)
    (hr : ∀ k ∈ remove, (∃ i, m.pois i = k) ∨ k ∈ newPois.map (·.1))
    (hn : (List.ofFn m.pois ++ newPois.map (·.1)).Nodup)
    (q : String → ℝ) : ∃ env, (∀ k, (∀ p, (m.nps p).name ≠ k) → k ∉ m.exprs.keys → k ∉ newExprs.map (·.1) →
        k ∉ remove → env k = q k) ∧ Consistent m newPois newExprs change remove values env := by
  have hD : (List.ofFn m.pois ++ Dict.keys (List.ofFn fun p => ((m.nps p).name, (m.nps p).nominal_value)) ++ Dict.keys m.exprs).Nodup :=
    hA.distinct
  have hnk : Dict.keys (List.ofFn fun p => ((m.nps p).name, (m.nps p).nominal_value)) = List.ofFn fun p => (m.nps p).name := by
    simp only [Dict.keys, List.map_ofFn]; rfl
  have hxp : ∀ i, m.pois i ∉ m.exprs.keys := fun i hi =>
    (List.nodup_append.1 hD).2.2 (m.pois i) (List.mem_append_left _ (List.mem_ofFn.2 ⟨i, rfl⟩)) _ hi rfl
  have hxn : ∀ p, (m.nps p).name ∉ m.exprs.keys := fun p hi =>
    (List.nodup_append.1 hD).2.2 (m.nps p).name
      (List.mem_append_right _ (by rw [hnk]; exact List.mem_ofFn.2 ⟨p, rfl⟩)) _ hi rfl
  have hpp : ∀ i p, m.pois i ≠ (m.nps p).name := fun i p =>
    (List.nodup_append.1 (List.nodup_append.1 hD).1).2.2 (m.pois i) (List.mem_ofFn.2 ⟨i, rfl⟩) _
      (by rw [hnk]; exact List.mem_ofFn.2 ⟨p, rfl⟩)
  have hin : Function.Injective fun p => (m.nps p).name := by
    rw [← List.nodup_ofFn, ← hnk]; exact (List.nodup_append.1 (List.nodup_append.1 hD).1).2.1
  let env0 : String → ℝ := fun k =>
    if hp : ∃ p, (m.nps p).name = k then (m.nps hp.choose).nominal_value
    else if hv : k ∈ remove ∧ ∃ v, FixedAt m newPois change values k v then hv.2.choose else q k
  have henp : ∀ p, env0 (m.nps p).name = (m.nps p).nominal_value := by
    intro p
    have hp : ∃ p', (m.nps p').name = (m.nps p).name := ⟨p, rfl⟩
    simp only [env0]
    rw [dif_pos hp]
    have : hp.choose = p := hin hp.choose_spec
    rw [this]
  have hkk : Dict.keys (m.exprs ++ newExprs) = m.exprs.keys ++ newExprs.map (·.1) := Dict.keys_append _ _
  obtain ⟨env, h1, h2⟩ := solve_exprs (m.exprs ++ newExprs)
    ((List.ofFn m.pois ++ newPois.map (·.1)).filter (fun k => k ∉ newExprs.map (·.1)) ++ List.ofFn fun p => (m.nps p).name) env0
    (by
      intro pre nm e post hs' k hk
      have hcase : ∃ pre', (m.exprs = pre ++ (nm, e) :: pre') ∨
          (pre = m.exprs ++ pre' ∧ newExprs = pre' ++ (nm, e) :: post) := by
        rcases List.append_eq_append_iff.1 hs' with ⟨a, h1, h2⟩ | ⟨a, h1, h2⟩
        · exact ⟨a, Or.inr ⟨h1, h2⟩⟩
        · cases a with
          | nil => exact ⟨[], Or.inr ⟨by simpa using h1.symm, by simpa using h2.symm⟩⟩
          | cons x a =>
            simp only [List.cons_append, List.cons.injEq] at h2
            rw [← h2.1] at h1
            exact ⟨a, Or.inl h1⟩
      have hpoi : ((∃ i, m.pois i = k) ∨ k ∈ newPois.map (·.1)) → k ∉ newExprs.map (·.1) →
          k ∈ (List.ofFn m.pois ++ newPois.map (·.1)).filter (fun k => k ∉ newExprs.map (·.1)) := by
        intro hor hnx
        refine List.mem_filter.2 ⟨List.mem_append.2 (hor.imp_left List.mem_ofFn.2), ?_⟩
        exact decide_eq_true hnx
      obtain ⟨pre', h1 | ⟨h1, h2⟩⟩ := hcase
      · rcases hA.order pre nm e pre' h1 k hk with ⟨hi, hnx⟩ | ⟨p, rfl⟩ | hpre
        · exact List.mem_append_left _ (List.mem_append_left _ (hpoi (Or.inl hi) hnx))
        · exact List.mem_append_left _ (List.mem_append_right _ (List.mem_ofFn.2 ⟨p, rfl⟩))
        · exact List.mem_append_right _ hpre
      · rcases hA.newOrder pre' nm e post h2 k hk with ⟨hor, hnx⟩ | ⟨p, rfl⟩ | hpre | hpre
        · exact List.mem_append_left _ (List.mem_append_left _ (hpoi hor hnx))
        · exact List.mem_append_left _ (List.mem_append_right _ (List.mem_ofFn.2 ⟨p, rfl⟩))
        · refine List.mem_append_right _ ?_
          rw [h1, Dict.keys_append]; exact List.mem_append_left _ hpre
        · refine List.mem_append_right _ ?_
          rw [h1, Dict.keys_append]; exact List.mem_append_right _ hpre)
    (by
      intro k hkb hke
      rw [hkk] at hke
      rcases List.mem_append.1 hkb with h | h
      · obtain ⟨h3, h4⟩ := List.mem_filter.1 h
        have h4' := of_decide_eq_true h4
        rcases List.mem_append.1 hke with h5 | h5
        · rcases List.mem_append.1 h3 with h6 | h6
          · obtain ⟨i, rfl⟩ := List.mem_ofFn.1 h6
            exact hxp i h5
          · exact (hA.freshPois k h6).2.1 h5
        · exact h4' h5
      · obtain ⟨p, rfl⟩ := List.mem_ofFn.1 h
        rcases List.mem_append.1 hke with h5 | h5
        · exact hxn p h5
        · exact (hA.freshExprs _ h5).1 p rfl)
    (by
      rw [hkk, List.nodup_append]
      refine ⟨(List.nodup_append.1 hD).2.1, hk, ?_⟩
      intro a ha b hb hab
      subst hab
      exact hk' a hb ha)
  have hne : ∀ k, k ∉ m.exprs.keys → k ∉ newExprs.map (·.1) → env k = env0 k := by
    intro k h3 h4
    refine h1 k ?_
    rw [hkk, List.mem_append, not_or]
    exact ⟨h3, h4⟩
  refine ⟨env, ?_, ?_, ?_, h2⟩
  · intro k h3 h4 h5 h6
    rw [hne k h4 h5]
    simp only [env0]
    rw [dif_neg (by rintro ⟨p, hp⟩; exact h3 p hp), dif_neg (fun hh => h6 hh.1)]
  · intro p
    rw [hne _ (hxn p) (fun hh => (hA.freshExprs _ hh).1 p rfl), henp]
  · intro k h3 h4 v hv
    have hnp : ∀ p, (m.nps p).name ≠ k := by
      rcases hr k h3 with ⟨i, rfl⟩ | h
      · exact fun p hp => hpp i p hp.symm
      · exact (hA.freshPois k h).1
    have hx : k ∉ m.exprs.keys := by
      rcases hr k h3 with ⟨i, rfl⟩ | h
      · exact hxp i
      · exact (hA.freshPois k h).2.1
    rw [hne k hx h4]
    simp only [env0]
    have hex : k ∈ remove ∧ ∃ v, FixedAt m newPois change values k v := ⟨h3, v, hv⟩
    rw [dif_neg (by rintro ⟨p, hp⟩; exact hnp p hp), dif_pos hex]
    exact fixedAt_unique hA hn hex.2.choose_spec hv

end

section
variable {n P : Nat} {fuel : Nat} {rx : String → String → Bool} {m : Mdl n P}
  {newExprs : List (String × Expr)} {newNorms : List NewNorm} {values : Dict ℝ} {env : String → ℝ} {n' : Nat} {m' : Mdl n' P}

/-- C66: with a full list of POIs, the POIs of the new model are those of the list, in its order, and the predictions are those of
the old model (where no normalisation is replaced). -/
theorem c66_listed {listed : List (String × ℝ)}
    (hA : Admissible m (listed.filter fun p => p.1 ∉ List.ofFn m.pois) newExprs
      ((List.ofFn m.pois).filter fun k => k ∉ listed.map (·.1)))
    (hC : Consistent m (listed.filter fun p => p.1 ∉ List.ofFn m.pois) newExprs (listed.filter fun p => p.1 ∈ List.ofFn m.pois)
      ((List.ofFn m.pois).filter fun k => k ∉ listed.map (·.1)) values env)
    (hF : Finite m newExprs env) (h : m.reparamListed fuel rx listed newExprs newNorms values = .ok ⟨n', m'⟩) :
    List.ofFn m'.pois = listed.map (·.1) ∧
    ((∀ c ∈ m.channels, ∀ s ∈ c.samples, matching rx newNorms c.name s.name = []) →
      ∀ {A : Arrays} {θ : Fin P → ℝ} {ne}, m.nExp A (fun i => env (m.pois i)) θ = .ok ne →
        m'.nExp A (fun i => env (m'.pois i)) θ = .ok ne) := by
  unfold reparamListed at h
  obtain ⟨⟨n1, m1⟩, h1, h2⟩ := bind_eq_ok.1 h
  dsimp only at h2
  obtain ⟨g1, g2, g3, g4, g5, g6⟩ := reorder_ok h2
  refine ⟨g1, ?_⟩
  intro hnn A θ ne h0
  refine nExp_names g2 g3 g4 ?_ g6 (c66_predictions hA hC hF h1 hnn h0)
  obtain ⟨-, -, -, -, hp, -⟩ := reparam_state hA hC hF h1
  intro k
  rw [g1]
  refine ⟨g5 k, ?_⟩
  intro hk
  rw [hp] at hk
  obtain ⟨h3, h4⟩ := List.mem_filter.1 hk
  rcases List.mem_append.1 h3 with h5 | h5
  · by_contra h6
    have h7 : k ∉ (List.ofFn m.pois).filter fun k => k ∉ listed.map (·.1) := of_decide_eq_true h4
    exact h7 (List.mem_filter.2 ⟨h5, decide_eq_true h6⟩)
  · obtain ⟨a, ha, rfl⟩ := List.mem_map.1 h5
    exact List.mem_map.2 ⟨a, (List.mem_filter.1 ha).1, rfl⟩
end

namespace ReparamDemo
/-- `mu = 2 k + c` -/
noncomputable def es : List (String × Expr) := [("mu", .linear 0 [("k", 2), ("c", 1)])]
noncomputable def ps : List (String × ℝ) := [("k", 1), ("c", 3)]
noncomputable def vs : Dict ℝ := []
/-- The point `k = 5`. -/
noncomputable def pt (k : String) : ℝ := if k = "k" then 5 else if k = "c" then 3 else if k = "mu" then 13 else 0

theorem admissible : Admissible (Demo.mdl false true) ps es ["mu", "c"] := by
  refine ⟨Demo.distinct _ _, ?_, ?_, ?_, ?_⟩
  · intro pre nm e post hs; simp [Demo.mdl] at hs
  · intro pre nm e post hs k hk
    have : pre = [] ∧ (nm, e) = ("mu", .linear 0 [("k", 2), ("c", 1)]) := by
      cases pre with
      | nil => simp [es] at hs; simp [hs]
      | cons a b => simp [es] at hs
    obtain ⟨rfl, h2⟩ := this
    simp only [Prod.mk.injEq] at h2
    obtain ⟨rfl, rfl⟩ := h2
    simp [Expr.deps, Dict.keys] at hk
    rcases hk with rfl | rfl <;> simp [ps, es]
  · simp [Demo.mdl, Dict.keys, ps, es]
  · simp [Demo.mdl, es]

theorem consistent : Consistent (Demo.mdl false true) ps es [] ["mu", "c"] vs pt := by
  refine ⟨?_, ?_, ?_⟩
  · simp [Demo.mdl, pt]
  · simp [FixedAt, Dict.get?, es, vs, pt, ps]
    rintro v (⟨h, -⟩ | rfl)
    · simp [Demo.mdl] at h
    · rfl
  · simp [Demo.mdl, Expr.tval, es, pt]; norm_num

theorem finite : Finite (Demo.mdl false true) es pt := by
  simp [Finite, Demo.mdl, Expr.denOk, es]

/-- The change succeeds; the POI `k` is left, and `mu` is the expression `3 + 2 k`. -/
theorem result : ∃ r, (Demo.mdl false true).reparam 5 (fun a b => a == b) ps es [] [] ["mu", "c"] vs = .ok r ∧
    List.ofFn r.2.pois = ["k"] ∧ r.2.exprs = [("mu", .linear 3 [("k", 2)])] := by
  have h1 : addPois (Demo.mdl false true).poiList ps = .ok [("mu", 1), ("k", 1), ("c", 3)] := by
    simp [addPois, poiList, Demo.mdl, ps]
  have h2 : addExprs (Demo.mdl false true).exprs es = .ok es := by
    simp [addExprs, Demo.mdl, es, Dict.keys]
  have h3 : updateNorms (fun a b => a == b) [] (Demo.mdl false true).channels = .ok (Demo.mdl false true).channels :=
    updateNorms_none (fun _ _ _ _ => rfl)
  have h5 : fillValues (changePois [("mu", 1), ("k", 1), ("c", 3)] []) ["mu", "c"] vs = .ok [("mu", 1), ("c", 3)] := by
    simp [changePois, fillValues, Dict.keys, vs, Dict.getItem, Dict.get?, Dict.set]
  simp only [reparam, h1, h2, h3, bind_ok, h5, removePois]
  have h4 : ∀ M : PoiModel, M.pois = ["mu", "k", "c"] → M.nps = [("np", 0)] → M.exprs = es → M.norms = ["mu"] →
      M.removePois 5 ["mu", "c"] [("mu", 1), ("c", 3)] = .ok ⟨["k"], [("np", 0)], [("mu", .linear 3 [("k", 2)])], ["mu"]⟩ := by
    intro M a b c d
    simp [PoiModel.removePois, a, PoiModel.removePoiLoop, PoiModel.removePoi, b, c, d, es, Dict.keys, PoiModel.replaceAll,
      Expr.replace, Expr.find, Dict.get?, Expr.replaceLoop, Expr.replaceLinear, Dict.set, PoiModel.removeFromNorms,
      PoiModel.removeExprs]
  rw [h4 _ (by simp [poiModel, withPois, changePois, Dict.get?]) (by simp [poiModel, withPois, Demo.mdl]) rfl
    (by simp [poiModel, withPois, Demo.mdl, normNames, Demo.sig, Demo.bkg])]
  refine ⟨_, rfl, ?_, rfl⟩
  simp [withPois, poiList, changePois, Dict.get?]
end ReparamDemo

/-- The hypotheses of the theorems are met by a non-trivial case. -/
example : ∃ n' m', (Demo.mdl false true).reparam 5 (fun a b => a == b) ReparamDemo.ps ReparamDemo.es [] [] ["mu", "c"]
      ReparamDemo.vs = .ok ⟨n', m'⟩ ∧ ∀ A (θ : Fin 1 → ℝ) ne, (Demo.mdl false true).nExp A (fun _ => 13) θ = .ok ne →
        m'.nExp A (fun i => ReparamDemo.pt (m'.pois i)) θ = .ok ne := by
  obtain ⟨⟨n', m'⟩, h, -⟩ := ReparamDemo.result
  refine ⟨n', m', h, fun A θ ne h0 => ?_⟩
  refine c66_predictions ReparamDemo.admissible ReparamDemo.consistent ReparamDemo.finite h (fun _ _ _ _ => rfl) ?_
  rw [← h0]
  congr 1
  funext i
  simp [Demo.mdl, ReparamDemo.pt]

/-- A non-trivial case of a full list: `k` and `c` take the place of `mu`, in the order `c`, `k`. -/
example : ∃ n' m', (Demo.mdl false true).reparamListed 5 (fun a b => a == b) [("c", 3), ("k", 1)] ReparamDemo.es [] [] =
      .ok ⟨n', m'⟩ ∧ List.ofFn m'.pois = ["c", "k"] ∧ ∀ A (θ : Fin 1 → ℝ) ne, (Demo.mdl false true).nExp A (fun _ => 13) θ = .ok ne →
        m'.nExp A (fun i => ReparamDemo.pt (m'.pois i)) θ = .ok ne := by
  have e1 : ([("c", 3), ("k", 1)] : List (String × ℝ)).filter (fun p => p.1 ∉ List.ofFn (Demo.mdl false true).pois) =
      [("c", 3), ("k", 1)] := by simp [Demo.mdl]
  have e2 : ([("c", 3), ("k", 1)] : List (String × ℝ)).filter (fun p => p.1 ∈ List.ofFn (Demo.mdl false true).pois) = [] := by
    simp [Demo.mdl]
  have e3 : (List.ofFn (Demo.mdl false true).pois).filter (fun k => k ∉ ([("c", 3), ("k", 1)] : List (String × ℝ)).map (·.1)) =
      ["mu"] := by simp [Demo.mdl]
  have hA : Admissible (Demo.mdl false true) [("c", 3), ("k", 1)] ReparamDemo.es ["mu"] := by
    obtain ⟨a, b, c, d, e⟩ := ReparamDemo.admissible
    refine ⟨a, b, ?_, ?_, ?_⟩
    · intro pre nm e post hs k hk
      have := c pre nm e post hs k hk
      simpa [ReparamDemo.ps, or_comm] using this
    · simp [Demo.mdl, Dict.keys, ReparamDemo.es]
    · simp [Demo.mdl, ReparamDemo.es]
  have hC : Consistent (Demo.mdl false true) [("c", 3), ("k", 1)] ReparamDemo.es [] ["mu"] [] ReparamDemo.pt := by
    obtain ⟨a, b, c⟩ := ReparamDemo.consistent
    refine ⟨a, ?_, c⟩
    simp [ReparamDemo.es]
  have hres : ∃ r, (Demo.mdl false true).reparamListed 5 (fun a b => a == b) [("c", 3), ("k", 1)] ReparamDemo.es [] [] = .ok r := by
    have h1 : addPois (Demo.mdl false true).poiList [("c", 3), ("k", 1)] = .ok [("mu", 1), ("c", 3), ("k", 1)] := by
      simp [addPois, poiList, Demo.mdl]
    have h2 : addExprs (Demo.mdl false true).exprs ReparamDemo.es = .ok ReparamDemo.es := by
      simp [addExprs, Demo.mdl, ReparamDemo.es, Dict.keys]
    have h3 : updateNorms (fun a b => a == b) [] (Demo.mdl false true).channels = .ok (Demo.mdl false true).channels :=
      updateNorms_none (fun _ _ _ _ => rfl)
    have h5 : fillValues (changePois [("mu", 1), ("c", 3), ("k", 1)] []) ["mu"] [] = .ok [("mu", 1)] := by
      simp [changePois, fillValues, Dict.keys, Dict.getItem, Dict.get?, Dict.set]
    unfold reparamListed
    rw [e1, e2, e3]
    simp only [reparam, h1, h2, h3, bind_ok, h5, removePois]
    have h4 : ∀ M : PoiModel, M.pois = ["mu", "c", "k"] → M.nps = [("np", 0)] → M.exprs = ReparamDemo.es → M.norms = ["mu"] →
        M.removePois 5 ["mu"] [("mu", 1)] = .ok ⟨["c", "k"], [("np", 0)], ReparamDemo.es, ["mu"]⟩ := by
      intro M a b c d
      simp [PoiModel.removePois, a, PoiModel.removePoiLoop, PoiModel.removePoi, b, c, d, ReparamDemo.es, Dict.keys,
        PoiModel.replaceAll, Expr.replace, Expr.find, Dict.get?, Expr.replaceLoop, Expr.replaceLinear, Dict.set,
        PoiModel.removeExprs]
    rw [h4 _ (by simp [poiModel, withPois, changePois, Dict.get?]) (by simp [poiModel, withPois, Demo.mdl]) rfl
      (by simp [poiModel, withPois, Demo.mdl, normNames, Demo.sig, Demo.bkg])]
    simp [reorder, withPois, poiList, changePois, Dict.get?, Dict.getItem]
  obtain ⟨⟨n', m'⟩, h⟩ := hres
  have := c66_listed (by rw [e1, e3]; exact hA) (by rw [e1, e2, e3]; exact hC) ReparamDemo.finite h
  refine ⟨n', m', h, this.1, fun A θ ne h0 => this.2 (fun _ _ _ _ => rfl) ?_⟩
  rw [← h0]
  congr 1
  funext i
  simp [Demo.mdl, ReparamDemo.pt]

/-- C66 finding: an expression of the model that uses a replaced POI.  The change succeeds, but the new expressions come after the
old ones, so that the new model cannot be evaluated at any point. -/
theorem c66_replaced_poi_in_expression_fails : ∃ r,
    ({ Demo.mdl false true with exprs := [("e", .linear 0 [("mu", 2)])] } : Mdl 1 1).reparam 5 (fun a b => a == b) [("k", 1)]
      [("mu", .linear 0 [("k", 2)])] [] [] ["mu"] [] = .ok r ∧
    ∀ x, r.2.ctx.realVals x = .error .keyError := by
  have h1 : addPois (Demo.mdl false true).poiList [("k", 1)] = .ok [("mu", 1), ("k", 1)] := by
    simp [addPois, poiList, Demo.mdl]
  have h2 : addExprs [("e", .linear 0 [("mu", 2)])] [("mu", .linear 0 [("k", 2)])] =
      .ok [("e", .linear 0 [("mu", 2)]), ("mu", .linear 0 [("k", 2)])] := by
    simp [addExprs, Dict.keys]
  have h3 : updateNorms (fun a b => a == b) [] (Demo.mdl false true).channels = .ok (Demo.mdl false true).channels :=
    updateNorms_none (fun _ _ _ _ => rfl)
  have h5 : fillValues (changePois [("mu", 1), ("k", 1)] []) ["mu"] [] = .ok [("mu", 1)] := by
    simp [changePois, fillValues, Dict.keys, Dict.getItem, Dict.get?, Dict.set]
  have h1' : ∀ E, addPois ({ Demo.mdl false true with exprs := E } : Mdl 1 1).poiList [("k", 1)] = .ok [("mu", 1), ("k", 1)] :=
    fun _ => h1
  simp only [reparam, h1', h2, h3, bind_ok, h5, removePois]
  have h4 : ∀ M : PoiModel, M.pois = ["mu", "k"] → M.nps = [("np", 0)] →
      M.exprs = [("e", .linear 0 [("mu", 2)]), ("mu", .linear 0 [("k", 2)])] → M.norms = ["mu"] →
      M.removePois 5 ["mu"] [("mu", 1)] =
        .ok ⟨["k"], [("np", 0)], [("e", .linear 0 [("mu", 2)]), ("mu", .linear 0 [("k", 2)])], ["mu"]⟩ := by
    intro M a b c d
    simp [PoiModel.removePois, a, PoiModel.removePoiLoop, PoiModel.removePoi, b, c, d, Dict.keys, PoiModel.replaceAll,
      Expr.replace, Expr.find, Dict.get?, Expr.replaceLoop, Expr.replaceLinear, Dict.set,
      PoiModel.removeExprs]
  rw [h4 _ (by simp [poiModel, withPois, changePois, Dict.get?]) (by simp [poiModel, withPois, Demo.mdl]) rfl
    (by simp [poiModel, withPois, Demo.mdl, normNames, Demo.sig, Demo.bkg])]
  refine ⟨_, rfl, ?_⟩
  intro x
  simp [ExprCtx.realVals, ExprCtx.evalLoop, ExprCtx.base, Mdl.ctx, withPois, poiList, changePois, Dict.get?, Demo.mdl,
    Expr.value, Expr.lookups, Dict.keys, Dict.getItem]

/-- C66 finding: a new POI with the name of an expression of the model is accepted (only POI names are checked); it has no effect,
as the expression takes its place. -/
theorem c66_new_poi_hidden_fails : ∃ r,
    ({ Demo.mdl false true with exprs := [("e", .linear 0 [("mu", 2)])] } : Mdl 1 1).reparam 5 (fun a b => a == b) [("e", 1)]
      [] [] [] [] [] = .ok r ∧ List.ofFn r.2.pois = ["mu", "e"] ∧
    ∀ env env' : String → ℝ, env "mu" = env' "mu" →
      ∀ d d', r.2.ctx.realVals (fun i => env (r.2.pois i)) = .ok d → r.2.ctx.realVals (fun i => env' (r.2.pois i)) = .ok d' →
        ∀ k, d.get? k = d'.get? k := by
  have h1' : ∀ E, addPois ({ Demo.mdl false true with exprs := E } : Mdl 1 1).poiList [("e", 1)] = .ok [("mu", 1), ("e", 1)] := by
    intro E
    simp [addPois, poiList, Demo.mdl]
  have h2 : addExprs [("e", .linear 0 [("mu", 2)])] [] = .ok [("e", .linear 0 [("mu", 2)])] := rfl
  have h3 : updateNorms (fun a b => a == b) [] (Demo.mdl false true).channels = .ok (Demo.mdl false true).channels :=
    updateNorms_none (fun _ _ _ _ => rfl)
  have h5 : fillValues (changePois [("mu", 1), ("e", 1)] []) [] [] = .ok [] := rfl
  simp only [reparam, h1', h2, h3, bind_ok, h5, removePois]
  have h4 : ∀ M : PoiModel, M.removePois 5 [] [] = .ok M := by
    intro M
    simp [PoiModel.removePois, PoiModel.removePoiLoop, PoiModel.removeExprs, Dict.keys]
  rw [h4]
  have key : ∀ r : (Σ n', Mdl n' 1), List.ofFn r.2.pois = ["mu", "e"] → r.2.exprs = [("e", .linear 0 [("mu", 2)])] →
      r.2.nps = (Demo.mdl false true).nps → ∀ env env' : String → ℝ, env "mu" = env' "mu" →
      ∀ d d', r.2.ctx.realVals (fun i => env (r.2.pois i)) = .ok d → r.2.ctx.realVals (fun i => env' (r.2.pois i)) = .ok d' →
        ∀ k, d.get? k = d'.get? k := by
    rintro ⟨n, r⟩ h6 h7 h8 env env' he d d' hd hd' k
    have hr : ∀ E : String → ℝ, r.ctx.realVals (fun i => E (r.pois i)) = .ok [("mu", E "mu"), ("e", 2 * E "mu"), ("np", 0)] := by
      intro E
      have : r.ctx.realVals (fun i => E (r.pois i)) = ExprCtx.evalLoop r.exprs (r.ctx.base (fun i => E (r.pois i))) := rfl
      rw [this, base_env, h6, h7, h8]
      simp [ExprCtx.evalLoop, Demo.mdl, Expr.value, Expr.lookups, Dict.keys, Dict.getItem, Dict.set, Dict.get?]
    dsimp only at hd hd'
    rw [hr env] at hd
    rw [hr env'] at hd'
    rw [← Except.ok.inj (ε := PyErr) hd, ← Except.ok.inj (ε := PyErr) hd', he]
  refine ⟨_, rfl, ?_, key _ ?_ rfl rfl⟩ <;>
  · refine (ofFn_withPois _ _).trans ?_
    simp [withPois, poiList, changePois, poiModel, Dict.get?]

end Verif.Props
