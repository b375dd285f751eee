import Verif.Lemmas.ExprCtx
/-!
# C05, C06, C40: expressions, their gradients and Hessians

`HasGrad f g x` (Lemmas/HasGrad.lean) means: `f : (Fin n → ℝ) → ℝ` is differentiable at `x` and its
derivative is `h ↦ ∑ i, g i * h i`.
-/
namespace Verif.Props
open Verif Filter Topology
variable {n : Nat}

/-- The names that can be evaluated: POIs, NPs, expressions. -/
def names (c : ExprCtx n) : List String := List.ofFn c.pois ++ Dict.keys c.nps ++ Dict.keys c.exprs

/-- C05.  Wherever the model can be evaluated, every quantity of the model has, near the point, a
well-defined value `f y`; the gradient method succeeds and returns the gradient of `f`, in particular
the vector of its partial derivatives. -/
theorem c05_gradient (c : ExprCtx n) (hD : c.Distinct) (x : Fin n → ℝ) (d : Dict ℝ)
    (hx : c.realVals x = .ok d) (nm : String) (hn : nm ∈ names c) :
    ∃ (f : (Fin n → ℝ) → ℝ) (g : Fin n → ℝ),
      (∀ᶠ y in 𝓝 x, ∃ dy, c.realVals y = .ok dy ∧ dy.get? nm = some (f y)) ∧
      c.gradient x nm = .ok g ∧ HasGrad f g x ∧
      ∀ i, HasDerivAt (fun t => f (Function.update x i t)) (g i) (x i) := by
  obtain ⟨h1, h2⟩ := ExprCtx.grad_main c.pois c.nps c.exprs x hD d hx
  obtain ⟨g, hg, hgr⟩ := h2 nm (by rw [ExprCtx.realVals_keys hD hx]; exact hn)
  refine ⟨fun y => c.valOf y nm, g, ?_, hg, hgr, hgr.partial⟩
  filter_upwards [h1] with y ⟨dy, hy⟩
  have hy : c.realVals y = .ok dy := hy
  have : nm ∈ dy.keys := by rw [ExprCtx.realVals_keys hD hy]; exact hn
  obtain ⟨v, hv⟩ := (Dict.mem_keys_iff _ _).1 this
  exact ⟨dy, hy, by simp [ExprCtx.valOf, hy, Expr.look, hv]⟩

/-- C06.  Wherever the Hessian method succeeds, it returns the matrix of derivatives of the
gradient the model reports near the point, which is itself the gradient of the value there; that
is, the second derivatives of the value.  The matrix is symmetric. -/
theorem c06_hessian (c : ExprCtx n) (hD : c.Distinct) (x : Fin n → ℝ) (nm : String)
    (hn : nm ∈ names c) (H : Fin n → Fin n → ℝ) (hH : c.hessian x nm = .ok H) :
    (∃ (f : (Fin n → ℝ) → ℝ) (G : (Fin n → ℝ) → Fin n → ℝ),
      (∀ᶠ y in 𝓝 x, (∃ dy, c.realVals y = .ok dy ∧ dy.get? nm = some (f y)) ∧ HasGrad f (G y) y) ∧
      ∀ j, HasGrad (fun y => G y j) (fun i => H i j) x) ∧
    ∀ i j, H i j = H j i := by
  simp only [ExprCtx.hessian] at hH
  obtain ⟨d, hx, hH⟩ := bind_eq_ok.1 hH
  have hk : ∀ y dy, c.realVals y = .ok dy → nm ∈ dy.keys := by
    intro y dy hy; rw [ExprCtx.realVals_keys hD hy]; exact hn
  refine ⟨⟨fun y => c.valOf y nm, fun y => c.gradOf y nm, ?_, fun j =>
    ExprCtx.hess_main c hD x d hx _ nm (hk x d hx) H hH j⟩, Expr.hessian_symm _ _ _ _ _ H hH⟩
  filter_upwards [(ExprCtx.grad_main c.pois c.nps c.exprs x hD d hx).1] with y ⟨dy, hy⟩
  have hy : c.realVals y = .ok dy := hy
  obtain ⟨v, hv⟩ := (Dict.mem_keys_iff _ _).1 (hk y dy hy)
  refine ⟨⟨dy, hy, by simp [ExprCtx.valOf, hy, Expr.look, hv]⟩, ?_⟩
  obtain ⟨g, hg, hgr⟩ := (ExprCtx.grad_main c.pois c.nps c.exprs y hD dy hy).2 nm (hk y dy hy)
  have hg : c.gradient y nm = .ok g := hg
  have : c.gradOf y nm = g := by simp [ExprCtx.gradOf, hg]
  rw [this]; exact hgr

/-- Every factor of every product/ratio expression is nonzero at the evaluated point. -/
def NoZeroFactor (c : ExprCtx n) (d : Dict ℝ) : Prop :=
  ∀ p ∈ c.exprs, ∀ pre num den, p.2 = Expr.prodRatio pre num den →
    ∀ k ∈ num ++ den, d.get? k ≠ some 0

/-- C06: the Hessian method succeeds wherever the model can be evaluated and no factor of a
product vanishes. -/
theorem c06_hessian_exists (c : ExprCtx n) (hD : c.Distinct) (x : Fin n → ℝ) (d : Dict ℝ)
    (hx : c.realVals x = .ok d) (hz : NoZeroFactor c d) (nm : String) (hn : nm ∈ names c) :
    ∃ H, c.hessian x nm = .ok H := by
  refine ExprCtx.hess_exists c hD x d hx ?_ nm (by rw [ExprCtx.realVals_keys hD hx]; exact hn)
  rintro ⟨k, e⟩ hp
  obtain ⟨hs, hdep, hden, hval⟩ := ExprCtx.evalLoop_fix c.exprs (c.base x) d
    (by rw [ExprCtx.base_keys]; exact hD) hx k e hp
  cases e with
  | prodRatio pre num den =>
    have hne : ∀ m ∈ num ++ den, Expr.look d m ≠ 0 := by
      intro m hm h0
      obtain ⟨v, hv⟩ := (Dict.mem_keys_iff _ _).1 (hdep m hm).1
      have : v = 0 := by simpa [Expr.look, hv] using h0
      exact hz _ hp pre num den rfl m hm (by rw [hv, this])
    simp only [Expr.factorsOk]
    constructor
    · rw [Ne, List.prod_eq_zero_iff]; intro hm
      obtain ⟨m, hm, h0⟩ := List.mem_map.1 hm
      exact hne m (by simp [hm]) h0
    · rw [Ne, List.prod_eq_zero_iff]; intro hm
      obtain ⟨m, hm, h0⟩ := List.mem_map.1 hm
      exact hne m (by simp [hm]) h0
  | _ => trivial

/-- Finding F03: the hypothesis of `c06_hessian_exists` is needed: the Hessian of `mu*nu` at
`mu = 0` (true value: the constant matrix with off-diagonal 1) is not computed (numpy: `nan`),
although the value and the gradient are. -/
theorem c06_zero_factor_fails :
    ∃ (c : ExprCtx 2) (x : Fin 2 → ℝ), c.Distinct ∧ (∃ d, c.realVals x = .ok d) ∧
      (∃ g, c.gradient x "prod" = .ok g) ∧ ∀ H, c.hessian x "prod" ≠ .ok H := by
  let c : ExprCtx 2 := ⟨![ "mu", "nu" ], [], [("prod", .prodRatio 1 ["mu", "nu"] [])]⟩
  have hD : c.Distinct := by
    simp [ExprCtx.Distinct, c, Dict.keys]
  have hr : ∃ d, c.realVals ![0, 1] = .ok d := by
    simp [c, ExprCtx.realVals, ExprCtx.evalLoop, Expr.value, Expr.lookups, ExprCtx.base,
      Dict.getItem, Dict.get?]
  refine ⟨c, ![0, 1], hD, hr, ?_, ?_⟩
  · obtain ⟨d, hd⟩ := hr
    obtain ⟨f, g, _, hg, _⟩ := c05_gradient c hD _ d hd "prod" (by simp [names, c, Dict.keys])
    exact ⟨g, hg⟩
  · intro H hH
    simp only [ExprCtx.hessian] at hH
    obtain ⟨d, hd, hH⟩ := bind_eq_ok.1 hH
    have hd' : d = [("mu", 0), ("nu", 1), ("prod", 0)] := by
      have : c.realVals ![0, 1] = .ok [("mu", 0), ("nu", 1), ("prod", 0)] := by
        simp [c, ExprCtx.realVals, ExprCtx.evalLoop, Expr.value, Expr.lookups, ExprCtx.base,
          Dict.getItem, Dict.get?, Dict.set]
      rw [this] at hd; cases hd; rfl
    simp only [Expr.hessian] at hH
    obtain ⟨e, he, hH⟩ := bind_eq_ok.1 hH
    have : e = .prodRatio 1 ["mu", "nu"] [] := by
      have h2 : c.reals.getItem "prod" = .ok (.prodRatio 1 ["mu", "nu"] []) := by
        simp [c, ExprCtx.reals, Dict.getItem, Dict.get?]
      rw [h2] at he; cases he; rfl
    subst this
    have := (Expr.hessStep_inv (name := "prod") (by simp) hH).2
    rw [hd'] at this
    simp [Expr.factorsOk, Expr.look, Dict.get?] at this

/-- C40: if the model can be evaluated, each expression refers only to parameters and to
expressions listed before it. -/
theorem c40_order (c : ExprCtx n) (hD : c.Distinct) (x : Fin n → ℝ) (d : Dict ℝ)
    (hx : c.realVals x = .ok d) (pre post : Dict Expr) (nm : String) (e : Expr)
    (hs : c.exprs = pre ++ (nm, e) :: post) :
    ∀ k ∈ e.deps nm, k ∈ List.ofFn c.pois ++ Dict.keys c.nps ++ Dict.keys pre := by
  simp only [ExprCtx.realVals, hs] at hx
  rw [ExprCtx.evalLoop_append] at hx
  obtain ⟨d1, h1, hx⟩ := bind_eq_ok.1 hx
  simp only [ExprCtx.evalLoop] at hx
  obtain ⟨v, hv, _⟩ := bind_eq_ok.1 hx
  have hD1 : ((c.base x).keys ++ Dict.keys pre).Nodup := by
    rw [ExprCtx.base_keys]
    have := hD
    unfold ExprCtx.Distinct at this
    rw [hs, Dict.keys_append, ← List.append_assoc] at this
    exact (List.nodup_append.1 this).1
  have hk := (ExprCtx.evalLoop_keys pre _ d1 hD1 h1).1
  intro k hkd
  have := ((Expr.value_ok_iff d1 nm e v).1 hv).1 k hkd
  rwa [hk, ExprCtx.base_keys] at this

/-- C40: conversely, if each expression refers only to parameters and to expressions listed before
it, evaluation succeeds, unless a denominator vanishes. -/
theorem c40_ordered_ok (c : ExprCtx n) (hD : c.Distinct) (x : Fin n → ℝ)
    (ho : ∀ pre nm e post, c.exprs = pre ++ (nm, e) :: post →
      ∀ k ∈ e.deps nm, k ∈ List.ofFn c.pois ++ Dict.keys c.nps ++ Dict.keys pre) :
    (∃ d, c.realVals x = .ok d) ∨ c.realVals x = .error .zeroDivision := by
  have key : ∀ (post pre : Dict Expr) (d : Dict ℝ), c.exprs = pre ++ post →
      d.keys = List.ofFn c.pois ++ Dict.keys c.nps ++ Dict.keys pre →
      (∃ d', ExprCtx.evalLoop post d = .ok d') ∨
        ExprCtx.evalLoop post d = .error .zeroDivision := by
    intro post
    induction post with
    | nil => intro pre d _ _; exact Or.inl ⟨d, rfl⟩
    | cons a post ih =>
      intro pre d hs hk
      obtain ⟨nm, e⟩ := a
      have hdeps : ∀ k ∈ e.deps nm, k ∈ d.keys := by rw [hk]; exact ho pre nm e post hs
      simp only [ExprCtx.evalLoop]
      rcases Expr.value_ok_or_zero d nm e hdeps with ⟨v, hv⟩ | hv
      · rw [hv, bind_ok]
        refine ih (pre ++ [(nm, e)]) _ (by simp [hs]) ?_
        have hnot : nm ∉ d.keys := by
          rw [hk]
          intro hm
          have := hD
          unfold ExprCtx.Distinct at this
          rw [hs, Dict.keys_append, ← List.append_assoc] at this
          exact (List.nodup_append.1 this).2.2 nm hm nm (by simp [Dict.keys]) rfl
        rw [Dict.keys_set, if_neg hnot, hk, Dict.keys_append]
        simp [Dict.keys]
      · rw [hv]; exact Or.inr rfl
  exact key c.exprs [] (c.base x) rfl (by rw [ExprCtx.base_keys]; simp [Dict.keys])

/-- C40: an expression that refers to an unknown (or later) name raises `KeyError`, if the
expressions before it can be evaluated. -/
theorem c40_unknown_keyError (c : ExprCtx n) (hD : c.Distinct) (x : Fin n → ℝ)
    (pre post : Dict Expr) (nm : String) (e : Expr) (hs : c.exprs = pre ++ (nm, e) :: post)
    (d : Dict ℝ) (hpre : (ExprCtx.mk c.pois c.nps pre).realVals x = .ok d) (k : String)
    (hk : k ∈ e.deps nm) (hu : k ∉ List.ofFn c.pois ++ Dict.keys c.nps ++ Dict.keys pre) :
    c.realVals x = .error .keyError := by
  have hD1 : (ExprCtx.mk c.pois c.nps pre).Distinct := by
    have := hD
    unfold ExprCtx.Distinct at this ⊢
    rw [hs, Dict.keys_append, ← List.append_assoc] at this
    exact (List.nodup_append.1 this).1
  have hkeys := ExprCtx.realVals_keys hD1 hpre
  have h1 : ExprCtx.evalLoop pre (c.base x) = .ok d := hpre
  simp only [ExprCtx.realVals, hs]
  rw [ExprCtx.evalLoop_append, h1, bind_ok, ExprCtx.evalLoop,
    Expr.value_missing d nm e k hk (by rw [hkeys]; exact hu)]
  rfl

/-- C40: expressions appended at the end do not affect the values of the others. -/
theorem c40_append (c : ExprCtx n) (more : Dict Expr) (x : Fin n → ℝ) (d' : Dict ℝ)
    (hD : (ExprCtx.mk c.pois c.nps (c.exprs ++ more)).Distinct)
    (hx : (ExprCtx.mk c.pois c.nps (c.exprs ++ more)).realVals x = .ok d') :
    ∃ d, c.realVals x = .ok d ∧ ∀ k ∈ names c, d'.get? k = d.get? k := by
  have hx' : ExprCtx.evalLoop (c.exprs ++ more) (c.base x) = .ok d' := hx
  rw [ExprCtx.evalLoop_append] at hx'
  obtain ⟨d, h1, h2⟩ := bind_eq_ok.1 hx'
  have hD0 : (List.ofFn c.pois ++ Dict.keys c.nps ++ Dict.keys c.exprs ++ Dict.keys more).Nodup := by
    have := hD; unfold ExprCtx.Distinct at this
    rw [Dict.keys_append, ← List.append_assoc] at this; exact this
  have hk := ExprCtx.realVals_keys (c := c) (List.nodup_append.1 hD0).1 h1
  refine ⟨d, h1, fun k hkn => ?_⟩
  exact (ExprCtx.evalLoop_keys more d d' (by rw [hk]; exact hD0) h2).2 k (by rw [hk]; exact hkn)

/-- C40: the dictionary of parameter values that `Model.real_vals` starts from
(`pars.dict(nominal_nps=True)`) is the one used in these theorems: POI values, then NP nominal
values. -/
theorem c40_base_is_nominal_dict (m : ParModel ℝ) (p : Pars ℝ)
    (hd : (m.pois ++ m.nps.map (·.name)).Nodup) (hp : p.pois.length = m.pois.length) :
    p.dict m true true = (ExprCtx.mk (fun i : Fin m.pois.length => m.pois[i])
      (m.nps.map (fun q => (q.name, q.nominal_value))) []).base
        (fun i => p.pois[i]'(by rw [hp]; exact i.2)) := by
  have key : ∀ (l : List (String × ℝ)) (d : Dict ℝ), (d.keys ++ l.map Prod.fst).Nodup →
      Dict.setAll d l = d ++ l := by
    intro l
    induction l with
    | nil => intro d _; simp [Dict.setAll]
    | cons a l ih =>
      intro d hn
      obtain ⟨k, v⟩ := a
      have hk : k ∉ d.keys := fun h => (List.nodup_append.1 hn).2.2 k h k (by simp) rfl
      have hset : ∀ (d : Dict ℝ), k ∉ d.keys → d.set k v = d ++ [(k, v)] := by
        intro d
        induction d with
        | nil => intro _; rfl
        | cons b d ihd =>
          intro hk
          obtain ⟨k', v'⟩ := b
          have : k' ≠ k ∧ k ∉ Dict.keys d := by
            simp only [Dict.keys, List.map_cons, List.mem_cons, not_or] at hk
            exact ⟨fun e => hk.1 e.symm, hk.2⟩
          simp [Dict.set, this.1, ihd this.2]
      have : Dict.setAll d ((k, v) :: l) = Dict.setAll (d.set k v) l := rfl
      rw [this, hset d hk, ih]
      · simp
      · rw [Dict.keys_append]; simpa [Dict.keys] using hn
  have hz : m.npNames.zip (List.zipWith (fun np s => np.unscaledValue s) m.nps
      (List.replicate m.nps.length 0)) = m.nps.map (fun q => (q.name, q.nominal_value)) := by
    unfold ParModel.npNames
    induction m.nps with
    | nil => rfl
    | cons a l ih =>
      have : a.unscaledValue 0 = a.nominal_value := by simp [NP.unscaledValue]
      simp [List.replicate_succ, this, ih]
  have h1 := List.nodup_append.1 hd
  have hfst : (m.pois.zip p.pois).map Prod.fst = m.pois := map_fst_zip' _ _ hp.symm
  simp only [Pars.dict, if_true, Bool.false_eq_true, if_false, Pars.unscaledNps]
  rw [hz, key (m.pois.zip p.pois) [] (by simpa [Dict.keys, hfst] using h1.1), key]
  · simp only [List.nil_append, ExprCtx.base]
    congr 1
    apply List.ext_getElem
    · simp [hp]
    · intro i h1 h2; simp
  · simp only [List.nil_append, Dict.keys, hfst, List.map_map]
    exact hd

/-- Non-vacuity: a model with two POIs, one NP and four chained expressions of all kinds meets
the hypotheses of C05/C06/C40 at a point. -/
example : ∃ (c : ExprCtx 2) (x : Fin 2 → ℝ) (d : Dict ℝ), c.Distinct ∧ c.realVals x = .ok d ∧
    NoZeroFactor c d ∧ "ratio" ∈ names c ∧ d.get? "ratio" = some 8 := by
  let c : ExprCtx 2 := ⟨![ "mu", "nu" ], [("np", 3)],
    [("two", .number 2), ("lin", .linear 1 [("mu", 2), ("np", 1)]),
     ("ratio", .prodRatio 4 ["lin", "two"] ["nu", "np"]), ("e", .exponential "ratio")]⟩
  have hr : c.realVals ![1, 2] = .ok [("mu", 1), ("nu", 2), ("np", 3), ("two", 2), ("lin", 6),
      ("ratio", 8), ("e", Real.exp 8)] := by
    simp [c, ExprCtx.realVals, ExprCtx.evalLoop, Expr.value, Expr.lookups, ExprCtx.base,
      Dict.getItem, Dict.get?, Dict.set, Dict.keys]
    norm_num
  refine ⟨c, ![1, 2], _, ?_, hr, ?_, ?_, ?_⟩
  · simp [ExprCtx.Distinct, c, Dict.keys]
  · intro p hp pre num den he k hk
    simp only [c, List.mem_cons, List.not_mem_nil, or_false] at hp
    rcases hp with rfl | rfl | rfl | rfl <;> simp at he
    obtain ⟨rfl, rfl, rfl⟩ := he
    simp at hk
    rcases hk with rfl | rfl | rfl | rfl <;> simp [Dict.get?]
  · simp [names, c, Dict.keys]
  · simp [Dict.get?]

end Verif.Props
