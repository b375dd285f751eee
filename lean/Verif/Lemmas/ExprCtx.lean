import Verif.Lemmas.Expr
import Verif.Lemmas.Params
import Mathlib.Data.List.Nodup
import Mathlib.Data.List.NodupEquivFin
/-! Expression lists: evaluation, gradients and Hessians of a whole model. -/
namespace Verif
open Filter Topology

theorem Dict.keys_append {V : Type _} (a b : Dict V) : Dict.keys (a ++ b) = Dict.keys a ++ Dict.keys b := by
  simp [Dict.keys]

theorem Dict.get?_append {V : Type _} (a b : Dict V) (k : String) :
    Dict.get? (a ++ b) k = (Dict.get? a k).or (Dict.get? b k) := by
  induction a with
  | nil => simp
  | cons p a ih =>
    obtain ⟨k', v⟩ := p
    rw [List.cons_append, Dict.get?_cons, Dict.get?_cons, ih]
    by_cases h : k' = k <;> simp [h]

theorem Dict.get?_map_const {V W : Type _} (l : Dict V) (w : W) (k : String) :
    Dict.get? (l.map (fun p => (p.1, w))) k = (Dict.get? l k).map (fun _ => w) := by
  induction l with
  | nil => simp
  | cons p l ih =>
    obtain ⟨k', v⟩ := p
    rw [List.map_cons, Dict.get?_cons, Dict.get?_cons, ih]
    by_cases h : k' = k <;> simp [h]

theorem Dict.get?_ofFn {V : Type _} {n : Nat} (f : Fin n → String) (v : Fin n → V)
    (hf : Function.Injective f) (i : Fin n) :
    Dict.get? (List.ofFn (fun i => (f i, v i))) (f i) = some (v i) := by
  rw [Dict.get?_eq_some_iff]
  · rw [List.mem_ofFn]; exact ⟨i, rfl⟩
  · have : Dict.keys (List.ofFn (fun i => (f i, v i))) = List.ofFn f := by
      rw [Dict.keys, List.map_ofFn]; rfl
    rw [this]; exact List.nodup_ofFn.2 hf

theorem Dict.keys_ofFn {V : Type _} {n : Nat} (f : Fin n → String) (v : Fin n → V) :
    Dict.keys (List.ofFn (fun i => (f i, v i))) = List.ofFn f := by
  rw [Dict.keys, List.map_ofFn]; rfl

theorem mapM_agree {α β ε : Type _} {f f' : α → Except ε β} {l : List α} {r : List β}
    (h : l.mapM f = .ok r) (hf : ∀ k ∈ l, ∀ g, f k = .ok g → f' k = .ok g) :
    l.mapM f' = .ok r := by
  rw [mapM_ok_iff] at *
  induction h with
  | nil => exact .nil
  | cons hab _ ih =>
    exact .cons (hf _ (by simp) _ hab) (ih (fun k hk => hf k (by simp [hk])))

namespace ExprCtx
variable {n : Nat}

theorem evalLoop_append (es es' : Dict Expr) (d : Dict ℝ) :
    evalLoop (es ++ es') d = (evalLoop es d >>= evalLoop es') := by
  induction es generalizing d with
  | nil => rfl
  | cons a es ih =>
    obtain ⟨nm, e⟩ := a
    simp only [List.cons_append, evalLoop]
    cases e.value d nm with
    | error _ => rfl
    | ok v => simp [ih]

theorem evalLoop_keys (es : Dict Expr) (d d' : Dict ℝ) (hn : (d.keys ++ es.keys).Nodup)
    (h : evalLoop es d = .ok d') :
    d'.keys = d.keys ++ es.keys ∧ ∀ k ∈ d.keys, d'.get? k = d.get? k := by
  induction es generalizing d with
  | nil => simp only [evalLoop, Except.ok.injEq] at h; subst h; simp [Dict.keys]
  | cons a es ih =>
    obtain ⟨nm, e⟩ := a
    simp only [evalLoop] at h
    obtain ⟨v, hv, h⟩ := bind_eq_ok.1 h
    have hk : Dict.keys ((nm, e) :: es) = nm :: Dict.keys es := rfl
    rw [hk] at hn
    have hnm : nm ∉ d.keys := by
      intro hm
      exact (List.nodup_append.1 hn).2.2 nm hm nm (by simp) rfl
    have hks : (d.set nm v).keys = d.keys ++ [nm] := by rw [Dict.keys_set, if_neg hnm]
    have hn' : ((d.set nm v).keys ++ Dict.keys es).Nodup := by rw [hks]; simpa using hn
    obtain ⟨h1, h2⟩ := ih _ hn' h
    refine ⟨by rw [h1, hks, hk]; simp, fun k hkm => ?_⟩
    rw [h2 k (by rw [hks]; simp [hkm]), Dict.get?_set_ne]
    rintro rfl; exact hnm hkm

/-- Values by name, 0 where evaluation fails. -/
noncomputable def valOf (c : ExprCtx n) (x : Fin n → ℝ) (nm : String) : ℝ :=
  match c.realVals x with
  | .ok d => Expr.look d nm
  | .error _ => 0

theorem base_keys (c : ExprCtx n) (x : Fin n → ℝ) :
    (c.base x).keys = List.ofFn c.pois ++ Dict.keys c.nps := by
  rw [base, Dict.keys_append, Dict.keys_ofFn]

theorem Distinct.inj {c : ExprCtx n} (h : c.Distinct) : Function.Injective c.pois := by
  unfold Distinct at h
  rw [List.append_assoc] at h
  exact List.nodup_ofFn.1 (List.nodup_append.1 h).1

theorem Distinct.np_ne {c : ExprCtx n} (h : c.Distinct) (i : Fin n) : c.pois i ∉ Dict.keys c.nps := by
  unfold Distinct at h
  intro hm
  exact (List.nodup_append.1 (List.nodup_append.1 h).1).2.2 (c.pois i)
    (List.mem_ofFn.2 ⟨i, rfl⟩) _ hm rfl

theorem base_get_poi {c : ExprCtx n} (h : c.Distinct) (x : Fin n → ℝ) (i : Fin n) :
    (c.base x).get? (c.pois i) = some (x i) := by
  rw [base, Dict.get?_append, Dict.get?_ofFn c.pois x h.inj]; rfl

theorem base_get_np (c : ExprCtx n) (x : Fin n → ℝ) (k : String)
    (hk : k ∉ List.ofFn c.pois) : (c.base x).get? k = Dict.get? c.nps k := by
  rw [base, Dict.get?_append]
  have : Dict.get? (List.ofFn (fun i => (c.pois i, x i))) k = none := by
    rw [Dict.get?_eq_none_iff, Dict.keys_ofFn]; exact hk
  rw [this]; rfl

theorem reals_get_base {c : ExprCtx n} (k : String)
    (hk : k ∈ List.ofFn c.pois ∨ k ∈ Dict.keys c.nps) :
    Dict.get? c.reals k = some Expr.single := by
  rw [reals, Dict.get?_append, Dict.get?_append]
  by_cases h : k ∈ List.ofFn c.pois
  · have : k ∈ Dict.keys (List.ofFn (fun i => (c.pois i, Expr.single))) := by
      rw [Dict.keys_ofFn]; exact h
    obtain ⟨v, hv⟩ := (Dict.mem_keys_iff _ _).1 this
    rw [hv]
    have hnd : v = Expr.single := by
      have hm : ∀ (l : Dict Expr), Dict.get? l k = some v → (k, v) ∈ l := by
        intro l
        induction l with
        | nil => simp
        | cons p l ih =>
          obtain ⟨k', w⟩ := p
          rw [Dict.get?_cons]
          by_cases hk : k' = k
          · simp only [hk, if_true, Option.some.injEq]; rintro rfl; simp
          · simp only [hk, if_false]; intro h; exact List.mem_cons_of_mem _ (ih h)
      have := hm _ hv
      rw [List.mem_ofFn] at this
      obtain ⟨i, hi⟩ := this
      simp at hi; exact hi.2.symm
    simp [hnd]
  · have h0 : Dict.get? (List.ofFn (fun i => (c.pois i, Expr.single))) k = none := by
      rw [Dict.get?_eq_none_iff, Dict.keys_ofFn]; exact h
    obtain ⟨v, hv⟩ := (Dict.mem_keys_iff _ _).1 (hk.resolve_left h)
    rw [h0, Dict.get?_map_const, hv]; rfl

/-- The main induction: values are differentiable with the reported gradients. -/
theorem grad_main (pois : Fin n → String) (nps : Dict ℝ) (es : Dict Expr) (x : Fin n → ℝ)
    (hD : (ExprCtx.mk pois nps es).Distinct) (d : Dict ℝ)
    (h : (ExprCtx.mk pois nps es).realVals x = .ok d) :
    (∀ᶠ y in 𝓝 x, ∃ d', (ExprCtx.mk pois nps es).realVals y = .ok d') ∧
    ∀ nm ∈ d.keys, ∃ g, (ExprCtx.mk pois nps es).gradient x nm = .ok g ∧
      HasGrad (fun y => (ExprCtx.mk pois nps es).valOf y nm) g x := by
  induction es using List.reverseRecOn generalizing d with
  | nil =>
    set c := ExprCtx.mk pois nps [] with hc
    have hr : ∀ y, c.realVals y = .ok (c.base y) := fun y => rfl
    refine ⟨Eventually.of_forall (fun y => ⟨_, hr y⟩), ?_⟩
    rw [hr] at h; cases h
    intro nm hnm
    rw [base_keys, List.mem_append] at hnm
    have hg : c.gradient x nm = .ok (fun i => if c.pois i = nm then 1 else 0) := by
      have : c.reals.getItem nm = .ok Expr.single := Dict.getItem_ok.2 (reals_get_base nm hnm)
      simp [gradient, hr, Expr.gradient, this, Expr.gradStep]
    refine ⟨_, hg, ?_⟩
    have hv : ∀ y, c.valOf y nm = Expr.look (c.base y) nm := fun y => by simp [valOf, hr]
    by_cases hp : nm ∈ List.ofFn c.pois
    · obtain ⟨i, rfl⟩ := List.mem_ofFn.1 hp
      have e1 : (fun y => c.valOf y (c.pois i)) = fun y => y i := by
        funext y; rw [hv, Expr.look, base_get_poi hD]; rfl
      have e2 : (fun j => if c.pois j = c.pois i then (1:ℝ) else 0) = fun j => if j = i then 1 else 0 := by
        funext j; simp [hD.inj.eq_iff]
      rw [e1, e2]; exact hasGrad_proj i x
    · have e1 : (fun y => c.valOf y nm) = fun _ => (Dict.get? c.nps nm).getD 0 := by
        funext y; rw [hv, Expr.look, base_get_np c y nm hp]
      have e2 : (fun j => if c.pois j = nm then (1:ℝ) else 0) = 0 := by
        funext j
        have : c.pois j ≠ nm := fun e => hp (List.mem_ofFn.2 ⟨j, e⟩)
        simp [this]
      rw [e1, e2]; exact hasGrad_const _ x
  | append_singleton es a ih =>
    obtain ⟨nm0, e⟩ := a
    set c1 := ExprCtx.mk pois nps es with hc1
    set c := ExprCtx.mk pois nps (es ++ [(nm0, e)]) with hc
    have hD' : (List.ofFn pois ++ Dict.keys nps ++ (Dict.keys es ++ [nm0])).Nodup := by
      have := hD; unfold Distinct at this; rw [hc, Dict.keys_append] at this; exact this
    have hD1 : c1.Distinct := by
      rw [← List.append_assoc] at hD'
      exact (List.nodup_append.1 hD').1
    have hnm0 : nm0 ∉ List.ofFn pois ++ Dict.keys nps ++ Dict.keys es := by
      rw [← List.append_assoc] at hD'
      intro hm
      exact (List.nodup_append.1 hD').2.2 nm0 hm nm0 (by simp) rfl
    have hr : ∀ y, c.realVals y = (c1.realVals y >>= fun d1 => (e.value d1 nm0) >>= fun v =>
        .ok (d1.set nm0 v)) := by
      intro y
      have : c.realVals y = evalLoop (es ++ [(nm0, e)]) (c.base y) := rfl
      rw [this, evalLoop_append]; rfl
    rw [hr] at h
    obtain ⟨d1, h1, h⟩ := bind_eq_ok.1 h
    obtain ⟨v, hv, h⟩ := bind_eq_ok.1 h
    cases h
    obtain ⟨ih1, ih2⟩ := ih hD1 d1 h1
    have hkeys : ∀ y d', c1.realVals y = .ok d' →
        d'.keys = List.ofFn pois ++ Dict.keys nps ++ Dict.keys es := by
      intro y d' hy
      have := (evalLoop_keys es (c1.base y) d' (by rw [base_keys]; exact hD1) hy).1
      rw [this, base_keys]
    have hk1 := hkeys x d1 h1
    rw [Expr.value_ok_iff] at hv
    obtain ⟨hdep, hden, hval⟩ := hv
    have hs : e ≠ Expr.single := by
      rintro rfl
      apply hnm0
      rw [← hk1]; exact hdep nm0 (by simp [Expr.deps])
    -- functions for c1
    have hlook : ∀ k, c1.valOf x k = Expr.look d1 k := fun k => by simp [valOf, h1]
    choose! G hG using ih2
    have hden' : e.denOk (fun k => c1.valOf x k) := by
      simp only [hlook]; exact hden
    have hgrad := Expr.hasGrad_tval pois (fun k y => c1.valOf y k) G x nm0 e hs hden'
      (fun k hk => (hG k (hdep k hk)).2)
    -- the denominators stay nonzero
    have hdenev : ∀ᶠ y in 𝓝 x, e.denOk (fun k => c1.valOf y k) := by
      cases e with
      | prodRatio pre num den =>
        have := Expr.hasGrad_prod den (fun k y => c1.valOf y k) G x
          (fun k hk => (hG k (hdep k (by simp [Expr.deps, hk]))).2)
        exact this.continuousAt.eventually_ne hden'
      | _ => exact Eventually.of_forall (fun y => trivial)
    have hev : ∀ᶠ y in 𝓝 x, ∃ d', c1.realVals y = .ok d' ∧
        c.realVals y = .ok (d'.set nm0 (e.tval (fun k => c1.valOf y k) nm0)) ∧ nm0 ∉ d'.keys := by
      filter_upwards [ih1, hdenev] with y ⟨d', hd'⟩ hy
      have hl : (fun k => c1.valOf y k) = Expr.look d' := by funext k; simp [valOf, hd']
      have hk' := hkeys y d' hd'
      refine ⟨d', hd', ?_, by rw [hk']; exact hnm0⟩
      rw [hr, hd', bind_ok]
      have hv : e.value d' nm0 = .ok (e.tval (fun k => c1.valOf y k) nm0) := by
        rw [Expr.value_ok_iff, hl]
        refine ⟨fun k hk => ?_, by rw [← hl]; exact hy, rfl⟩
        rw [hk', ← hk1]; exact hdep k hk
      rw [hv, bind_ok]
    have hrx : c.realVals x = .ok (d1.set nm0 (e.tval (Expr.look d1) nm0)) := by
      rw [hr, h1, bind_ok, (Expr.value_ok_iff d1 nm0 e _).2 ⟨hdep, hden, rfl⟩, bind_ok]
    -- monotonicity of reals and vals
    have hRmono : ∀ k f, Dict.get? c1.reals k = some f → Dict.get? c.reals k = some f := by
      intro k f hf
      have : c.reals = c1.reals ++ [(nm0, e)] := by simp [reals, hc, hc1]
      rw [this, Dict.get?_append, hf]; rfl
    have hdmono : ∀ k w, d1.get? k = some w → (d1.set nm0 v).get? k = some w := by
      intro k w hw
      rw [Dict.get?_set_ne]; · exact hw
      rintro rfl
      exact hnm0 (by rw [← hk1]; exact (Dict.mem_keys_iff _ _).2 ⟨w, hw⟩)
    have hgold : ∀ k ∈ d1.keys, Expr.gradient pois c.reals (d1.set nm0 v) (es.length + 1) k = .ok (G k) := by
      intro k hk
      have := (hG k hk).1
      simp only [gradient, h1, bind_ok] at this
      exact Expr.gradient_mono hRmono hdmono _ _ (le_refl _) k _ this
    have hlen : c.exprs.length = es.length + 1 := by simp [hc]
    refine ⟨hev.mono (fun y ⟨d', _, h, _⟩ => ⟨_, h⟩), ?_⟩
    intro nm hnm
    rw [Dict.keys_set, if_neg (by rw [hk1]; exact hnm0)] at hnm
    rcases List.mem_append.1 hnm with hnm | hnm
    · -- an old name
      refine ⟨G nm, ?_, ?_⟩
      · have := hgold nm hnm
        simp only [gradient, hrx, bind_ok, hlen]
        rw [← hval]
        exact Expr.gradient_mono (fun k e h => h) (fun k v h => h) _ _ (by omega) nm _ this
      · refine (hG nm hnm).2.congr ?_
        filter_upwards [hev] with y ⟨d', hy1, hy2, hy3⟩
        simp only [valOf, hy1, hy2, Expr.look]
        rw [Dict.get?_set_ne]
        rintro rfl; exact hnm0 (by rw [← hk1]; exact hnm)
    · -- the new name
      simp only [List.mem_singleton] at hnm
      subst hnm
      refine ⟨e.tgrad pois (Expr.look d1) G nm, ?_, ?_⟩
      · have hget : c.reals.getItem nm = .ok e := by
          rw [Dict.getItem_ok]
          have : c.reals = c1.reals ++ [(nm, e)] := by simp [reals, hc, hc1]
          rw [this, Dict.get?_append]
          have : Dict.get? c1.reals nm = none := by
            rw [Dict.get?_eq_none_iff]
            have : Dict.keys c1.reals = List.ofFn pois ++ Dict.keys nps ++ Dict.keys es := by
              simp only [reals, hc1, Dict.keys_append, Dict.keys_ofFn]
              congr 2
              simp [Dict.keys]
            rw [this]; exact hnm0
          rw [this]; simp [Dict.get?]
        simp only [gradient, hrx, bind_ok, hlen]
        rw [← hval]
        show Expr.gradient pois c.reals (d1.set nm v) (es.length + 1 + 1) nm = _
        rw [Expr.gradient, hget, bind_ok]
        have hst := Expr.gradStep_ok pois d1
          (Expr.gradient pois c.reals (d1.set nm v) (es.length + 1)) nm e G hdep hden
          (fun _ k hk => hgold k (hdep k hk))
        exact Expr.gradStep_mono hdmono (fun k g h => h) hst
      · have : (fun k => c1.valOf x k) = Expr.look d1 := by funext k; exact hlook k
        rw [this] at hgrad
        refine hgrad.congr ?_
        filter_upwards [hev] with y ⟨d', hy1, hy2, hy3⟩
        simp [valOf, hy2, Expr.look]

/-- Gradient by name, 0 where it fails. -/
noncomputable def gradOf (c : ExprCtx n) (y : Fin n → ℝ) (nm : String) : Fin n → ℝ :=
  match c.gradient y nm with
  | .ok g => g
  | .error _ => 0

end ExprCtx

namespace Expr
variable {ι : Type} [Fintype ι] [DecidableEq ι]

theorem gradStep_inv {pois : ι → String} {d : Dict ℝ} {r : String → Except PyErr (ι → ℝ)}
    {name : String} {e : Expr} {g : ι → ℝ} (hs : e ≠ single)
    (h : e.gradStep pois d r name = .ok g) : ∀ k ∈ e.deps name, ∃ gk, r k = .ok gk := by
  cases e with
  | number w => simp [deps]
  | single => exact absurd rfl hs
  | linear nominal coeffs =>
    simp only [gradStep] at h
    obtain ⟨gs, h1, _⟩ := bind_eq_ok.1 h
    exact mapM_ok_mem h1
  | prodRatio pre num den =>
    simp only [gradStep] at h
    obtain ⟨a, ha, h⟩ := bind_eq_ok.1 h
    obtain ⟨b, hb, h⟩ := bind_eq_ok.1 h
    obtain ⟨c, hc, h⟩ := bind_eq_ok.1 h
    obtain ⟨e, he, h⟩ := bind_eq_ok.1 h
    intro k hk
    rcases List.mem_append.1 hk with hk | hk
    · exact mapM_ok_mem hb k hk
    · exact mapM_ok_mem he k hk
  | exponential e =>
    simp only [gradStep] at h
    obtain ⟨a, ha, h⟩ := bind_eq_ok.1 h
    simp [deps, ha]

theorem hessStep_inv {d : Dict ℝ} {r : String → Except PyErr (ι → ℝ)}
    {s : String → Except PyErr (ι → ι → ℝ)}
    {name : String} {e : Expr} {g : ι → ι → ℝ} (hs : e ≠ single)
    (h : e.hessStep d r s = .ok g) :
    (∀ k ∈ e.deps name, ∃ gk, s k = .ok gk) ∧ e.factorsOk (look d) := by
  cases e with
  | number w => simp [deps, factorsOk]
  | single => exact absurd rfl hs
  | linear nominal coeffs =>
    simp only [hessStep] at h
    obtain ⟨gs, h1, _⟩ := bind_eq_ok.1 h
    exact ⟨mapM_ok_mem h1, trivial⟩
  | prodRatio pre num den =>
    simp only [hessStep] at h
    obtain ⟨a, ha, h⟩ := bind_eq_ok.1 h
    obtain ⟨b, hb, h⟩ := bind_eq_ok.1 h
    obtain ⟨b', hb', h⟩ := bind_eq_ok.1 h
    obtain ⟨c, hc, h⟩ := bind_eq_ok.1 h
    obtain ⟨e, he, h⟩ := bind_eq_ok.1 h
    obtain ⟨e', he', h⟩ := bind_eq_ok.1 h
    constructor
    · intro k hk
      rcases List.mem_append.1 hk with hk | hk
      · exact mapM_ok_mem hb' k hk
      · exact mapM_ok_mem he' k hk
    · rw [lookups_ok (lookups_mem ha)] at ha
      rw [lookups_ok (lookups_mem hc)] at hc
      cases ha; cases hc
      simp only [factorsOk]
      by_cases hz : (num.map (look d)).prod = 0 ∨ (den.map (look d)).prod = 0
      · rw [if_pos hz] at h; simp at h
      · push Not at hz; exact hz
  | exponential e =>
    simp only [hessStep] at h
    obtain ⟨a, ha, h⟩ := bind_eq_ok.1 h
    obtain ⟨b, hb, h⟩ := bind_eq_ok.1 h
    obtain ⟨c, hc, h⟩ := bind_eq_ok.1 h
    exact ⟨by simp [deps, hc], trivial⟩
end Expr

namespace ExprCtx
variable {n : Nat}

/-- Values of all names satisfy the defining equations of the expressions. -/
theorem evalLoop_fix (es : Dict Expr) (d d' : Dict ℝ) (hn : (d.keys ++ es.keys).Nodup)
    (h : evalLoop es d = .ok d') (nm : String) (e : Expr) (hm : (nm, e) ∈ es) :
    e ≠ Expr.single ∧ (∀ k ∈ e.deps nm, k ∈ d'.keys ∧ k ≠ nm) ∧ e.denOk (Expr.look d') ∧
      d'.get? nm = some (e.tval (Expr.look d') nm) := by
  induction es generalizing d with
  | nil => simp at hm
  | cons a es ih =>
    obtain ⟨nm', e'⟩ := a
    simp only [evalLoop] at h
    obtain ⟨v, hv, h⟩ := bind_eq_ok.1 h
    have hk : Dict.keys ((nm', e') :: es) = nm' :: Dict.keys es := rfl
    rw [hk] at hn
    have hnm : nm' ∉ d.keys := fun hm => (List.nodup_append.1 hn).2.2 nm' hm nm' (by simp) rfl
    have hks : (d.set nm' v).keys = d.keys ++ [nm'] := by rw [Dict.keys_set, if_neg hnm]
    have hn' : ((d.set nm' v).keys ++ Dict.keys es).Nodup := by rw [hks]; simpa using hn
    obtain ⟨k1, k2⟩ := evalLoop_keys es _ d' hn' h
    rcases List.mem_cons.1 hm with hm | hm
    · cases hm
      rw [Expr.value_ok_iff] at hv
      obtain ⟨a1, a2, a3⟩ := hv
      have hlook : ∀ k ∈ e.deps nm, Expr.look d' k = Expr.look d k := by
        intro k hk
        have hkd := a1 k hk
        unfold Expr.look
        rw [k2 k (by rw [hks]; simp [hkd]), Dict.get?_set_ne]
        rintro rfl; exact hnm hkd
      have hs : e ≠ Expr.single := by
        rintro rfl; exact hnm (a1 nm (by simp [Expr.deps]))
      have hcong : e.tval (Expr.look d') nm = e.tval (Expr.look d) nm ∧
          (e.denOk (Expr.look d') ↔ e.denOk (Expr.look d)) := by
        cases e with
        | number w => simp [Expr.tval, Expr.denOk]
        | single => exact absurd rfl hs
        | linear nom co =>
          simp only [Expr.tval, Expr.denOk, and_true]
          congr 2
          apply List.map_congr_left
          intro kc hkc
          rw [hlook kc.1 (List.mem_map.2 ⟨kc, hkc, rfl⟩)]
        | prodRatio pre num den =>
          have e1 : num.map (Expr.look d') = num.map (Expr.look d) :=
            List.map_congr_left (fun k hk => hlook k (by simp [Expr.deps, hk]))
          have e2 : den.map (Expr.look d') = den.map (Expr.look d) :=
            List.map_congr_left (fun k hk => hlook k (by simp [Expr.deps, hk]))
          simp [Expr.tval, Expr.denOk, e1, e2]
        | exponential e => simp [Expr.tval, Expr.denOk, hlook e (by simp [Expr.deps])]
      refine ⟨hs, fun k hk => ⟨?_, ?_⟩, hcong.2.2 a2, ?_⟩
      · rw [k1, hks]; simp [a1 k hk]
      · rintro rfl; exact hnm (a1 k hk)
      · rw [k2 nm (by rw [hks]; simp), Dict.get?_set_self, hcong.1, a3]
    · exact ih _ hn' h hm

theorem hess_main (c : ExprCtx n) (hD : c.Distinct) (x : Fin n → ℝ) (d : Dict ℝ)
    (h : c.realVals x = .ok d) (fuel : Nat) (nm : String) (hnm : nm ∈ d.keys)
    (H : Fin n → Fin n → ℝ)
    (hH : Expr.hessian c.pois c.reals d fuel nm = .ok H) (j : Fin n) :
    HasGrad (fun y => c.gradOf y nm j) (fun i => H i j) x := by
  have hgm := grad_main c.pois c.nps c.exprs
  have hkeys : ∀ y d', c.realVals y = .ok d' →
      d'.keys = List.ofFn c.pois ++ Dict.keys c.nps ++ Dict.keys c.exprs := by
    intro y d' hy
    have := (evalLoop_keys c.exprs (c.base y) d' (by rw [base_keys]; exact hD) hy).1
    rw [this, base_keys]
  have hkx := hkeys x d h
  -- gradients exist near x for every known name
  have hge : ∀ᶠ y in 𝓝 x, ∃ d', c.realVals y = .ok d' ∧
      ∀ k ∈ d.keys, c.gradient y k = .ok (c.gradOf y k) ∧ HasGrad (fun z => c.valOf z k) (c.gradOf y k) y := by
    filter_upwards [(hgm x hD d h).1] with y ⟨d', hd'⟩
    refine ⟨d', hd', fun k hk => ?_⟩
    obtain ⟨g, hg, hg2⟩ := (hgm y hD d' hd').2 k (by rw [hkeys y d' hd', ← hkx]; exact hk)
    have : c.gradOf y k = g := by
      have hg' : c.gradient y k = .ok g := hg
      simp [gradOf, hg']
    rw [this]; exact ⟨hg, hg2⟩
  induction fuel generalizing nm H j with
  | zero => simp [Expr.hessian] at hH
  | succ fuel ih =>
    simp only [Expr.hessian] at hH
    obtain ⟨e, he, hH⟩ := bind_eq_ok.1 hH
    rw [Dict.getItem_ok] at he
    by_cases hb : nm ∈ List.ofFn c.pois ++ Dict.keys c.nps
    · -- a parameter
      rw [reals_get_base nm (List.mem_append.1 hb)] at he
      cases he
      simp only [Expr.hessStep, Except.ok.injEq] at hH
      subst hH
      have : (fun y => c.gradOf y nm j) =ᶠ[𝓝 x] fun _ => if c.pois j = nm then 1 else 0 := by
        filter_upwards [hge] with y ⟨d', hd', hk⟩
        have h1 := (hk nm hnm).1
        have : c.gradient y nm = .ok (fun i => if c.pois i = nm then 1 else 0) := by
          have h2 : c.reals.getItem nm = .ok Expr.single :=
            Dict.getItem_ok.2 (reals_get_base nm (List.mem_append.1 hb))
          simp [gradient, hd', Expr.gradient, h2, Expr.gradStep]
        rw [this] at h1
        exact (congrFun (Except.ok.inj h1) j).symm
      exact (hasGrad_const _ x).congr this
    · -- an expression
      have hmem : (nm, e) ∈ c.exprs := by
        have hnd : (Dict.keys c.reals).Nodup := by
          have : Dict.keys c.reals = List.ofFn c.pois ++ Dict.keys c.nps ++ Dict.keys c.exprs := by
            simp only [reals, Dict.keys_append, Dict.keys_ofFn]
            congr 2
            simp [Dict.keys]
          rw [this]; exact hD
        have := (Dict.get?_eq_some_iff c.reals hnd nm e).1 he
        rw [reals, List.mem_append] at this
        refine this.resolve_left (fun hm => hb ?_)
        rcases List.mem_append.1 hm with hm | hm
        · obtain ⟨i, hi⟩ := List.mem_ofFn.1 hm
          simp at hi; exact List.mem_append_left _ (List.mem_ofFn.2 ⟨i, hi.1⟩)
        · obtain ⟨p, hp, hi⟩ := List.mem_map.1 hm
          simp at hi
          exact List.mem_append_right _ (List.mem_map.2 ⟨p, hp, hi.1⟩)
      have hfix : ∀ y d', c.realVals y = .ok d' → _ := fun y d' hy =>
        evalLoop_fix c.exprs (c.base y) d' (by rw [base_keys]; exact hD) hy nm e hmem
      obtain ⟨hs, hdep, hden, hval⟩ := hfix x d h
      obtain ⟨hHk, hfac⟩ := Expr.hessStep_inv (name := nm) hs hH
      choose! Hk hHk' using hHk
      have hlook : ∀ y d', c.realVals y = .ok d' → (fun k => c.valOf y k) = Expr.look d' := by
        intro y d' hy; funext k; simp [valOf, hy]
      have hx := hge.self_of_nhds
      obtain ⟨dx, hdx, hgx⟩ := hx
      have hmain := Expr.hasGrad_tgrad c.pois (fun k y => c.valOf y k) (fun k y => c.gradOf y k) Hk x nm e hs
        (by rw [hlook x d h]; exact hfac)
        (fun k hk => (hgx k (hdep k hk).1).2)
        (fun k hk j => ih k (hdep k hk).1 (Hk k) (hHk' k hk) j) j
      -- the computed gradient satisfies the recursion near x
      have hrec : ∀ᶠ y in 𝓝 x, c.gradOf y nm = e.tgrad c.pois (fun k => c.valOf y k) (fun k => c.gradOf y k) nm := by
        filter_upwards [hge] with y ⟨d', hd', hk⟩
        obtain ⟨hs', hdep', hden', hval'⟩ := hfix y d' hd'
        have h1 := (hk nm hnm).1
        have h1c := h1
        simp only [gradient, hd', bind_ok] at h1
        rw [Expr.gradient, Dict.getItem_ok.2 he, bind_ok] at h1
        have hinv := Expr.gradStep_inv hs h1
        have hsub : ∀ k ∈ e.deps nm, Expr.gradient c.pois c.reals d' c.exprs.length k = .ok (c.gradOf y k) := by
          intro k hkd
          obtain ⟨gk, hgk⟩ := hinv k hkd
          have h2 := Expr.gradient_mono (fun k e h => h) (fun k v h => h) _ (c.exprs.length + 1) (by omega) k _ hgk
          have h3 : c.gradient y k = .ok gk := by simp only [gradient, hd', bind_ok]; exact h2
          rw [(hk k (hdep k hkd).1).1] at h3
          cases h3; exact hgk
        have h4 := Expr.gradStep_ok c.pois d' (Expr.gradient c.pois c.reals d' c.exprs.length) nm e
          (fun k => c.gradOf y k) (fun k hk => (hdep' k hk).1) hden' (fun _ => hsub)
        rw [h4] at h1
        rw [hlook y d' hd']
        exact (Except.ok.inj h1).symm
      -- the computed Hessian is `thess`
      have hHe : H = e.thess (Expr.look d) (fun k => c.gradOf x k) Hk := by
        -- gradients at depth `fuel` agree with gradOf
        have hGk : ∀ k ∈ e.deps nm, ∀ gk, Expr.gradient c.pois c.reals d fuel k = .ok gk → gk = c.gradOf x k := by
          intro k hk gk hgk
          have h2 := Expr.gradient_mono (fun k e h => h) (fun k v h => h) _ (max fuel (c.exprs.length + 1)) (le_max_left _ _) k _ hgk
          have h3 := (hgx k (hdep k hk).1).1
          simp only [gradient, h, bind_ok] at h3
          have h4 := Expr.gradient_mono (fun k e h => h) (fun k v h => h) _ (max fuel (c.exprs.length + 1)) (le_max_right _ _) k _ h3
          rw [h2] at h4; cases h4; rfl
        -- recompute with a total gradient function
        have hst := Expr.hessStep_ok d (fun k => .ok (c.gradOf x k)) (Expr.hessian c.pois c.reals d fuel) nm e
          (fun k => c.gradOf x k) Hk (fun k hk => (hdep k hk).1) hfac (fun _ k _ => rfl) (fun _ => hHk')
        have hagree : e.hessStep d (fun k => .ok (c.gradOf x k)) (Expr.hessian c.pois c.reals d fuel) = .ok H := by
          cases e with
          | number w => exact hH
          | single => exact absurd rfl hs
          | linear nom co => exact hH
          | prodRatio pre num den =>
            simp only [Expr.hessStep] at hH ⊢
            obtain ⟨a, ha, hH⟩ := bind_eq_ok.1 hH
            obtain ⟨b, hb, hH⟩ := bind_eq_ok.1 hH
            obtain ⟨b', hb', hH⟩ := bind_eq_ok.1 hH
            obtain ⟨c', hc, hH⟩ := bind_eq_ok.1 hH
            obtain ⟨e, he, hH⟩ := bind_eq_ok.1 hH
            obtain ⟨e', he', hH⟩ := bind_eq_ok.1 hH
            have f1 : num.mapM (fun k => (.ok (c.gradOf x k) : Except PyErr (Fin n → ℝ))) = .ok b := by
              exact mapM_agree hb (fun k hk g hg => by
                rw [hGk k (by simp [Expr.deps, hk]) g hg])
            have f2 : den.mapM (fun k => (.ok (c.gradOf x k) : Except PyErr (Fin n → ℝ))) = .ok e := by
              exact mapM_agree he (fun k hk g hg => by
                rw [hGk k (by simp [Expr.deps, hk]) g hg])
            rw [ha, bind_ok, f1, bind_ok, hb', bind_ok, hc, bind_ok, f2, bind_ok, he', bind_ok]
            exact hH
          | exponential e =>
            simp only [Expr.hessStep] at hH ⊢
            obtain ⟨a, ha, hH⟩ := bind_eq_ok.1 hH
            obtain ⟨b, hb, hH⟩ := bind_eq_ok.1 hH
            obtain ⟨c', hc, hH⟩ := bind_eq_ok.1 hH
            rw [bind_ok, hb, bind_ok, hc, bind_ok, ← hGk e (by simp [Expr.deps]) a ha]
            exact hH
        rw [hst] at hagree
        cases hagree; rfl
      rw [hHe]
      rw [hlook x d h] at hmain
      exact hmain.congr (hrec.mono (fun y hy => congrFun hy j))

end ExprCtx
end Verif

namespace Verif
open Filter Topology
namespace ExprCtx
variable {n : Nat}

theorem realVals_keys {c : ExprCtx n} (hD : c.Distinct) {x : Fin n → ℝ} {d : Dict ℝ}
    (h : c.realVals x = .ok d) :
    d.keys = List.ofFn c.pois ++ Dict.keys c.nps ++ Dict.keys c.exprs := by
  have := (evalLoop_keys c.exprs (c.base x) d (by rw [base_keys]; exact hD) h).1
  rw [this, base_keys]

theorem keys_reals (c : ExprCtx n) :
    Dict.keys c.reals = List.ofFn c.pois ++ Dict.keys c.nps ++ Dict.keys c.exprs := by
  simp only [reals, Dict.keys_append, Dict.keys_ofFn]
  congr 2
  simp [Dict.keys]

/-- The Hessian computation succeeds when no factor of a product vanishes. -/
theorem hess_exists (c : ExprCtx n) (hD : c.Distinct) (x : Fin n → ℝ) (d : Dict ℝ)
    (h : c.realVals x = .ok d) (hf : ∀ p ∈ c.exprs, p.2.factorsOk (Expr.look d))
    (nm : String) (hnm : nm ∈ d.keys) : ∃ H, c.hessian x nm = .ok H := by
  have key : ∀ (fuel : Nat) (nm : String), nm ∈ d.keys →
      (∃ g, Expr.gradient c.pois c.reals d fuel nm = .ok g) →
      ∃ H, Expr.hessian c.pois c.reals d fuel nm = .ok H := by
    intro fuel
    induction fuel with
    | zero => intro nm _ ⟨g, hg⟩; simp [Expr.gradient] at hg
    | succ fuel ih =>
      intro nm hnm ⟨g, hg⟩
      simp only [Expr.gradient] at hg
      obtain ⟨e, he, hg⟩ := bind_eq_ok.1 hg
      rw [Expr.hessian, he, bind_ok]
      rw [Dict.getItem_ok] at he
      by_cases hb : nm ∈ List.ofFn c.pois ++ Dict.keys c.nps
      · rw [reals_get_base nm (List.mem_append.1 hb)] at he
        cases he
        exact ⟨0, rfl⟩
      · have hnd : (Dict.keys c.reals).Nodup := by rw [keys_reals]; exact hD
        have hmem : (nm, e) ∈ c.exprs := by
          have := (Dict.get?_eq_some_iff c.reals hnd nm e).1 he
          rw [reals, List.mem_append] at this
          refine this.resolve_left (fun hm => hb ?_)
          rcases List.mem_append.1 hm with hm | hm
          · obtain ⟨i, hi⟩ := List.mem_ofFn.1 hm
            simp at hi; exact List.mem_append_left _ (List.mem_ofFn.2 ⟨i, hi.1⟩)
          · obtain ⟨p, hp, hi⟩ := List.mem_map.1 hm
            simp at hi
            exact List.mem_append_right _ (List.mem_map.2 ⟨p, hp, hi.1⟩)
        obtain ⟨hs, hdep, hden, hval⟩ :=
          evalLoop_fix c.exprs (c.base x) d (by rw [base_keys]; exact hD) h nm e hmem
        have hG := Expr.gradStep_inv hs hg
        have hH : ∀ k ∈ e.deps nm, ∃ H, Expr.hessian c.pois c.reals d fuel k = .ok H :=
          fun k hk => ih k (hdep k hk).1 (hG k hk)
        choose! G hG' using hG
        choose! H hH' using hH
        exact ⟨_, Expr.hessStep_ok d _ _ nm e G H (fun k hk => (hdep k hk).1) (hf _ hmem)
          (fun _ => hG') (fun _ => hH')⟩
  obtain ⟨g, hg, _⟩ := (grad_main c.pois c.nps c.exprs x hD d h).2 nm hnm
  have hg : c.gradient x nm = .ok g := hg
  simp only [gradient, h, bind_ok] at hg
  obtain ⟨H, hH⟩ := key _ nm hnm ⟨g, hg⟩
  exact ⟨H, by simp only [hessian, h, bind_ok]; exact hH⟩

end ExprCtx

namespace Expr
variable {ι : Type} [Fintype ι] [DecidableEq ι]

theorem zipWith_sum_symm {α β : Type} (f g : α → β → ℝ) (l : List α) (m : List β)
    (h : ∀ a, ∀ b ∈ m, f a b = g a b) :
    (List.zipWith f l m).sum = (List.zipWith g l m).sum := by
  induction l generalizing m with
  | nil => simp
  | cons a l ih =>
    cases m with
    | nil => simp
    | cons b m => simp [h a b (by simp), ih m (fun a b hb => h a b (by simp [hb]))]

theorem mapM_forall {α β ε : Type _} {f : α → Except ε β} {l : List α} {r : List β} {P : β → Prop}
    (h : l.mapM f = .ok r) (hf : ∀ a b, f a = .ok b → P b) : ∀ b ∈ r, P b := by
  rw [mapM_ok_iff] at h
  induction h with
  | nil => simp
  | cons h1 _ ih =>
    intro b hb
    rcases List.mem_cons.1 hb with rfl | hb
    · exact hf _ _ h1
    · exact ih b hb

theorem normHessian_symm (vs : List ℝ) (gs : List (ι → ℝ)) (hs : List (ι → ι → ℝ))
    (h : ∀ H ∈ hs, ∀ i j, H i j = H j i) (i j : ι) :
    normHessian vs gs hs i j = normHessian vs gs hs j i := by
  unfold normHessian
  apply zipWith_sum_symm
  rintro v ⟨g, H⟩ hm
  have := h H (List.of_mem_zip hm).2 i j
  simp only [this, mul_comm (g j)]

theorem hessian_symm (pois : ι → String) (R : Dict Expr) (d : Dict ℝ) (fuel : Nat) (nm : String)
    (H : ι → ι → ℝ) (h : hessian pois R d fuel nm = .ok H) (i j : ι) : H i j = H j i := by
  induction fuel generalizing nm H i j with
  | zero => simp [hessian] at h
  | succ fuel ih =>
    simp only [hessian] at h
    obtain ⟨e, _, h⟩ := bind_eq_ok.1 h
    have ih' : ∀ k H, hessian pois R d fuel k = .ok H → ∀ i j, H i j = H j i := fun k H hk i j => ih k H hk i j
    cases e with
    | number w => simp only [hessStep, Except.ok.injEq] at h; subst h; rfl
    | single => simp only [hessStep, Except.ok.injEq] at h; subst h; rfl
    | linear nom co =>
      simp only [hessStep] at h
      obtain ⟨hs, h1, h⟩ := bind_eq_ok.1 h
      simp only [pure_ok, Except.ok.injEq] at h
      subst h
      apply zipWith_sum_symm
      intro kc K hK
      rw [mapM_forall (P := fun K => ∀ i j, K i j = K j i) h1 ih' K hK i j]
    | prodRatio pre num den =>
      simp only [hessStep] at h
      obtain ⟨a, ha, h⟩ := bind_eq_ok.1 h
      obtain ⟨b, hb, h⟩ := bind_eq_ok.1 h
      obtain ⟨b', hb', h⟩ := bind_eq_ok.1 h
      obtain ⟨c, hc, h⟩ := bind_eq_ok.1 h
      obtain ⟨e, he, h⟩ := bind_eq_ok.1 h
      obtain ⟨e', he', h⟩ := bind_eq_ok.1 h
      split at h
      · simp at h
      · simp only [pure_ok, Except.ok.injEq] at h
        subst h
        simp only
        rw [normHessian_symm _ _ _ (mapM_forall (P := fun K => ∀ i j, K i j = K j i) hb' ih') i j,
          normHessian_symm _ _ _ (mapM_forall (P := fun K => ∀ i j, K i j = K j i) he' ih') i j]
        ring
    | exponential e =>
      simp only [hessStep] at h
      obtain ⟨a, ha, h⟩ := bind_eq_ok.1 h
      obtain ⟨b, hb, h⟩ := bind_eq_ok.1 h
      obtain ⟨c, hc, h⟩ := bind_eq_ok.1 h
      simp only [pure_ok, Except.ok.injEq] at h
      subst h
      simp only
      rw [ih' _ _ hc i j]; ring

theorem mapM_getItem_missing {d : Dict ℝ} {l : List String} {k : String} (hk : k ∈ l) (hn : k ∉ d.keys) :
    lookups d l = .error .keyError := by
  unfold lookups
  induction l with
  | nil => simp at hk
  | cons a l ih =>
    rw [List.mapM_cons]
    cases ha : d.get? a with
    | none => simp [Dict.getItem, ha]
    | some v =>
      have hne : k ≠ a := fun e => hn ((Dict.mem_keys_iff d k).2 ⟨v, e ▸ ha⟩)
      have := ih ((List.mem_cons.1 hk).resolve_left hne)
      simp [Dict.getItem, ha, this]

theorem value_missing (d : Dict ℝ) (nm : String) (e : Expr) (k : String) (hk : k ∈ e.deps nm)
    (hn : k ∉ d.keys) : e.value d nm = .error .keyError := by
  cases e with
  | number w => simp [deps] at hk
  | single =>
    simp only [deps, List.mem_singleton] at hk; subst hk
    rw [← Dict.get?_eq_none_iff] at hn
    simp [value, Dict.getItem, hn]
  | linear nom co =>
    have hk' : k ∈ Dict.keys co := hk
    simp [value, mapM_getItem_missing hk' hn]
  | prodRatio pre num den =>
    simp only [value]
    by_cases h1 : ∃ k ∈ num, k ∉ d.keys
    · obtain ⟨k, hk, hkn⟩ := h1
      simp [mapM_getItem_missing hk hkn]
    · push Not at h1
      have : k ∈ den := (List.mem_append.1 hk).resolve_left (fun h => hn (h1 k h))
      rw [lookups_ok h1, bind_ok, mapM_getItem_missing this hn]; rfl
  | exponential e =>
    simp only [deps, List.mem_singleton] at hk; subst hk
    rw [← Dict.get?_eq_none_iff] at hn
    simp [value, Dict.getItem, hn]

/-- With all its references present, an expression has a value unless its denominator is 0. -/
theorem value_ok_or_zero (d : Dict ℝ) (nm : String) (e : Expr)
    (hk : ∀ k ∈ e.deps nm, k ∈ d.keys) :
    (∃ v, e.value d nm = .ok v) ∨ e.value d nm = .error .zeroDivision := by
  have hg : ∀ k ∈ d.keys, ∃ v, d.getItem k = .ok v := by
    intro k hk
    obtain ⟨v, hv⟩ := (Dict.mem_keys_iff _ _).1 hk
    exact ⟨v, by simp [Dict.getItem, hv]⟩
  cases e with
  | number w => exact Or.inl ⟨w, rfl⟩
  | single => exact Or.inl (hg nm (hk nm (by simp [deps])))
  | linear nom co =>
    have : ∀ k ∈ Dict.keys co, k ∈ d.keys := hk
    left; simp [value, lookups_ok this]
  | prodRatio pre num den =>
    have h1 : ∀ k ∈ num, k ∈ d.keys := fun k h => hk k (List.mem_append_left _ h)
    have h2 : ∀ k ∈ den, k ∈ d.keys := fun k h => hk k (List.mem_append_right _ h)
    simp only [value, lookups_ok h1, lookups_ok h2, bind_ok]
    split_ifs
    · right; rfl
    · left; exact ⟨_, rfl⟩
  | exponential e =>
    obtain ⟨v, hv⟩ := hg e (hk e (by simp [deps]))
    left; simp [value, hv]
end Expr
end Verif
