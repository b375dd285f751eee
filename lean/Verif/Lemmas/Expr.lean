import Verif.Model.Expr
import Verif.Lemmas.Except
import Verif.Lemmas.Dict
import Verif.Lemmas.HasGrad
import Mathlib.Tactic.Ring
import Mathlib.Tactic.FieldSimp
/-! Helper lemmas for expressions: values, gradients, Hessians. -/
namespace Verif
open Filter Topology

theorem zipWith_map_self {α β γ : Type _} (f : α → β → γ) (g : α → β) (l : List α) :
    List.zipWith f l (l.map g) = l.map (fun a => f a (g a)) := by
  induction l with
  | nil => rfl
  | cons a l ih => simp [ih]

theorem zipWith_map_map {α β γ δ : Type _} (f : β → γ → δ) (g : α → β) (h : α → γ) (l : List α) :
    List.zipWith f (l.map g) (l.map h) = l.map (fun a => f (g a) (h a)) := by
  induction l with
  | nil => rfl
  | cons a l ih => simp [ih]

theorem zip_map_map {α β γ : Type _} (g : α → β) (h : α → γ) (l : List α) :
    (l.map g).zip (l.map h) = l.map (fun a => (g a, h a)) := by
  induction l with
  | nil => rfl
  | cons a l ih => simp [ih]

theorem Dict.getItem_ok {V : Type _} {d : Dict V} {k : String} {v : V} :
    d.getItem k = .ok v ↔ d.get? k = some v := by
  unfold Dict.getItem; cases d.get? k <;> simp

namespace Expr
variable {ι : Type} [Fintype ι] [DecidableEq ι]

/-! ### gradients of products -/

theorem prodGradient_cons (v : ℝ) (vs : List ℝ) (g : ι → ℝ) (gs : List (ι → ℝ)) :
    prodGradient (v :: vs) (g :: gs) = fun i => vs.prod * g i + v * prodGradient vs gs i := by
  funext i
  simp only [prodGradient, List.length_cons, List.range_succ_eq_map, List.map_cons, List.map_map,
    List.sum_cons, List.set_cons_zero, List.prod_cons, one_mul, List.getD_cons_zero]
  congr 1
  rw [← List.sum_map_mul_left]
  congr 1
  apply List.map_congr_left
  intro k _
  simp [mul_assoc]

theorem hasGrad_prod (names : List String) (val : String → (ι → ℝ) → ℝ) (G : String → ι → ℝ)
    (x : ι → ℝ) (h : ∀ k ∈ names, HasGrad (val k) (G k) x) :
    HasGrad (fun y => (names.map (fun k => val k y)).prod)
      (prodGradient (names.map (fun k => val k x)) (names.map G)) x := by
  induction names with
  | nil =>
    have : prodGradient ([] : List ℝ) ([] : List (ι → ℝ)) = 0 := by
      funext i; simp [prodGradient]
    simp only [List.map_nil, List.prod_nil, this]
    exact hasGrad_const 1 x
  | cons a names ih =>
    simp only [List.map_cons, List.prod_cons, prodGradient_cons]
    have := (h a (by simp)).mul (ih (fun k hk => h k (by simp [hk])))
    have e : (fun i => G a i * (names.map (fun k => val k x)).prod +
        val a x * prodGradient (names.map (fun k => val k x)) (names.map G) i) =
        fun i => (names.map (fun k => val k x)).prod * G a i +
        val a x * prodGradient (names.map (fun k => val k x)) (names.map G) i := by
      funext i; ring
    rw [e] at this; exact this

theorem prodGradient_eq_norm (names : List String) (v : String → ℝ) (G : String → ι → ℝ)
    (h : ∀ k ∈ names, v k ≠ 0) (i : ι) :
    prodGradient (names.map v) (names.map G) i =
      (names.map v).prod * (names.map (fun k => G k i / v k)).sum := by
  induction names with
  | nil => simp [prodGradient]
  | cons a names ih =>
    have ha : v a ≠ 0 := h a (by simp)
    simp only [List.map_cons, prodGradient_cons, List.prod_cons, List.sum_cons]
    rw [ih (fun k hk => h k (by simp [hk]))]
    field_simp

theorem normGradient_map (names : List String) (v : String → ℝ) (G : String → ι → ℝ) (i : ι) :
    normGradient (names.map v) (names.map G) i = (names.map (fun k => G k i / v k)).sum := by
  simp [normGradient, zipWith_map_map]

theorem normHessian_map (names : List String) (v : String → ℝ) (G : String → ι → ℝ)
    (H : String → ι → ι → ℝ) (i j : ι) :
    normHessian (names.map v) (names.map G) (names.map H) i j =
      (names.map (fun k => (H k i j - G k j * G k i / v k) / v k)).sum := by
  simp [normHessian, zip_map_map, zipWith_map_map]

/-! ### evaluation in an environment -/

/-- The value stored for `k`, 0 if absent. -/
noncomputable def look (d : Dict ℝ) (k : String) : ℝ := (d.get? k).getD 0

theorem lookups_ok {d : Dict ℝ} {names : List String} (h : ∀ k ∈ names, k ∈ d.keys) :
    lookups d names = .ok (names.map (look d)) := by
  apply mapM_map_ok
  intro k hk
  obtain ⟨v, hv⟩ := (Dict.mem_keys_iff d k).1 (h k hk)
  rw [Dict.getItem_ok]; simp [look, hv]

theorem lookups_mem {d : Dict ℝ} {names : List String} {r : List ℝ}
    (h : lookups d names = .ok r) : ∀ k ∈ names, k ∈ d.keys := by
  intro k hk
  obtain ⟨v, hv⟩ := mapM_ok_mem h k hk
  exact (Dict.mem_keys_iff d k).2 ⟨v, Dict.getItem_ok.1 hv⟩

/-- The names an expression refers to. -/
def deps (name : String) : Expr → List String
  | number _ => []
  | single => [name]
  | linear _ coeffs => coeffs.keys
  | prodRatio _ num den => num ++ den
  | exponential e => [e]

/-- The total value of an expression in an environment. -/
noncomputable def tval (env : String → ℝ) (name : String) : Expr → ℝ
  | number v => v
  | single => env name
  | linear nominal coeffs => nominal + (coeffs.map (fun kc => kc.2 * env kc.1)).sum
  | prodRatio prefactor num den => prefactor * (num.map env).prod / (den.map env).prod
  | exponential e => Real.exp (env e)

/-- Denominators do not vanish. -/
def denOk (env : String → ℝ) : Expr → Prop
  | prodRatio _ _ den => (den.map env).prod ≠ 0
  | _ => True

/-- No factor vanishes. -/
def factorsOk (env : String → ℝ) : Expr → Prop
  | prodRatio _ num den => (num.map env).prod ≠ 0 ∧ (den.map env).prod ≠ 0
  | _ => True

theorem value_ok_iff (d : Dict ℝ) (name : String) (e : Expr) (v : ℝ) :
    e.value d name = .ok v ↔
      (∀ k ∈ e.deps name, k ∈ d.keys) ∧ e.denOk (look d) ∧ v = e.tval (look d) name := by
  cases e with
  | number w => simp [value, deps, denOk, tval, eq_comm]
  | single =>
    simp only [value, deps, denOk, tval, Dict.getItem_ok, List.mem_singleton, forall_eq,
      true_and, Dict.mem_keys_iff]
    constructor
    · intro h; exact ⟨⟨v, h⟩, by simp [look, h]⟩
    · rintro ⟨⟨w, hw⟩, rfl⟩; simp [look, hw]
  | linear nominal coeffs =>
    simp only [value, deps, denOk, tval, true_and]
    constructor
    · intro h
      rw [bind_eq_ok] at h
      obtain ⟨vs, h1, h2⟩ := h
      have hm := lookups_mem h1
      rw [lookups_ok hm] at h1
      cases h1
      refine ⟨hm, ?_⟩
      simp only [pure_ok, Except.ok.injEq] at h2
      rw [← h2, Dict.keys, List.map_map, zipWith_map_self]; rfl
    · rintro ⟨hm, rfl⟩
      rw [lookups_ok hm]
      simp only [bind_ok, pure_ok, Dict.keys, List.map_map, zipWith_map_self]; rfl
  | prodRatio pre num den =>
    simp only [value, deps, denOk, tval]
    constructor
    · intro h
      rw [bind_eq_ok] at h
      obtain ⟨ns, h1, h⟩ := h
      rw [bind_eq_ok] at h
      obtain ⟨ds, h2, h⟩ := h
      have hm1 := lookups_mem h1
      have hm2 := lookups_mem h2
      rw [lookups_ok hm1] at h1
      rw [lookups_ok hm2] at h2
      cases h1; cases h2
      by_cases hz : (den.map (look d)).prod = 0
      · simp [hz] at h
      · simp [hz] at h
        refine ⟨?_, hz, h.symm⟩
        intro k hk
        rcases List.mem_append.1 hk with hk | hk
        · exact hm1 k hk
        · exact hm2 k hk
    · rintro ⟨hm, hz, rfl⟩
      rw [lookups_ok (fun k hk => hm k (by simp [hk])), lookups_ok (fun k hk => hm k (by simp [hk]))]
      simp only [bind_ok, pure_ok, if_neg hz]
  | exponential e =>
    simp only [value, deps, denOk, tval, List.mem_singleton, forall_eq, true_and, Dict.mem_keys_iff]
    constructor
    · intro h
      rw [bind_eq_ok] at h
      obtain ⟨w, h1, h2⟩ := h
      rw [Dict.getItem_ok] at h1
      simp at h2
      exact ⟨⟨w, h1⟩, by simp [look, h1, h2]⟩
    · rintro ⟨⟨w, hw⟩, rfl⟩
      have : d.getItem e = .ok w := Dict.getItem_ok.2 hw
      simp [this, look, hw]

/-- The gradient of `tval`, given the gradients of the environment. -/
noncomputable def tgrad (pois : ι → String) (env : String → ℝ) (G : String → ι → ℝ) (name : String) :
    Expr → ι → ℝ
  | number _ => 0
  | single => fun i => if pois i = name then 1 else 0
  | linear _ coeffs => fun i => (coeffs.map (fun kc => kc.2 * G kc.1 i)).sum
  | prodRatio prefactor num den => fun i =>
      prefactor * prodGradient (num.map env) (num.map G) i / (den.map env).prod
      - prefactor * (num.map env).prod / (den.map env).prod
        * normGradient (den.map env) (den.map G) i
  | exponential e => fun i => Real.exp (env e) * G e i

theorem gradStep_ok (pois : ι → String) (d : Dict ℝ) (recur : String → Except PyErr (ι → ℝ))
    (name : String) (e : Expr) (G : String → ι → ℝ)
    (hd : ∀ k ∈ e.deps name, k ∈ d.keys) (hz : e.denOk (look d))
    (hG : e ≠ single → ∀ k ∈ e.deps name, recur k = .ok (G k)) :
    e.gradStep pois d recur name = .ok (e.tgrad pois (look d) G name) := by
  cases e with
  | number w => simp [gradStep, tgrad]
  | single => simp [gradStep, tgrad]
  | linear nominal coeffs =>
    have hG := hG (by simp)
    simp only [deps] at hG
    simp only [gradStep, tgrad, mapM_map_ok hG, bind_ok, pure_ok, Except.ok.injEq]
    funext i
    rw [Dict.keys, List.map_map, zipWith_map_self]; rfl
  | prodRatio pre num den =>
    have hG := hG (by simp)
    simp only [deps, denOk] at hd hG hz
    simp only [gradStep, tgrad]
    rw [lookups_ok (fun k hk => hd k (by simp [hk])), lookups_ok (fun k hk => hd k (by simp [hk])),
      mapM_map_ok (fun k hk => hG k (by simp [hk])), mapM_map_ok (fun k hk => hG k (by simp [hk]))]
    simp only [bind_ok, pure_ok, if_neg hz]
  | exponential e =>
    have hG := hG (by simp)
    simp only [deps, List.mem_singleton, forall_eq] at hd hG
    obtain ⟨v, hv⟩ := (Dict.mem_keys_iff d e).1 hd
    have hv' : d.getItem e = .ok v := Dict.getItem_ok.2 hv
    simp [gradStep, tgrad, hG, hv', look, hv]

/-- `tgrad` is the gradient of `tval`. -/
theorem hasGrad_tval (pois : ι → String) (val : String → (ι → ℝ) → ℝ) (G : String → ι → ℝ)
    (x : ι → ℝ) (name : String) (e : Expr) (hs : e ≠ single)
    (hz : e.denOk (fun k => val k x)) (h : ∀ k ∈ e.deps name, HasGrad (val k) (G k) x) :
    HasGrad (fun y => e.tval (fun k => val k y) name) (e.tgrad pois (fun k => val k x) G name) x := by
  cases e with
  | number w => exact hasGrad_const w x
  | single => exact absurd rfl hs
  | linear nominal coeffs =>
    simp only [tval, tgrad]
    have h1 : HasGrad (fun y => (coeffs.map (fun kc => kc.2 * val kc.1 y)).sum)
        (fun i => (coeffs.map (fun kc => kc.2 * G kc.1 i)).sum) x := by
      apply HasGrad.list_sum coeffs (fun kc y => kc.2 * val kc.1 y) (fun kc i => kc.2 * G kc.1 i)
      intro kc hkc
      exact (h kc.1 (List.mem_map.2 ⟨kc, hkc, rfl⟩)).const_mul kc.2
    have h2 := (hasGrad_const nominal x).add h1
    simpa using h2
  | prodRatio pre num den =>
    simp only [tval, tgrad, denOk, deps] at *
    have hn := hasGrad_prod num val G x (fun k hk => h k (by simp [hk]))
    have hdn := hasGrad_prod den val G x (fun k hk => h k (by simp [hk]))
    have := (hn.const_mul pre).div hdn hz
    have hne : ∀ k ∈ den, val k x ≠ 0 := by
      intro k hk h0
      exact hz (List.prod_eq_zero (List.mem_map.2 ⟨k, hk, h0⟩))
    have e : (fun i => (pre * prodGradient (num.map (fun k => val k x)) (num.map G) i
          * (den.map (fun k => val k x)).prod
        - pre * (num.map (fun k => val k x)).prod
          * prodGradient (den.map (fun k => val k x)) (den.map G) i)
          / (den.map (fun k => val k x)).prod ^ 2) =
        fun i => pre * prodGradient (num.map (fun k => val k x)) (num.map G) i
          / (den.map (fun k => val k x)).prod
        - pre * (num.map (fun k => val k x)).prod / (den.map (fun k => val k x)).prod
          * normGradient (den.map (fun k => val k x)) (den.map G) i := by
      funext i
      rw [prodGradient_eq_norm den (fun k => val k x) G hne, normGradient_map]
      field_simp
    rw [e] at this
    exact this
  | exponential e => exact (h e (by simp [deps])).exp

/-- The Hessian of `tval`. -/
noncomputable def thess (env : String → ℝ) (G : String → ι → ℝ) (H : String → ι → ι → ℝ) :
    Expr → ι → ι → ℝ
  | number _ => 0
  | single => 0
  | linear _ coeffs => fun i j => (coeffs.map (fun kc => kc.2 * H kc.1 i j)).sum
  | prodRatio prefactor num den => fun i j =>
      prefactor * (num.map env).prod / (den.map env).prod *
      (normHessian (num.map env) (num.map G) (num.map H) i j
        - normHessian (den.map env) (den.map G) (den.map H) i j
        + (normGradient (num.map env) (num.map G) i - normGradient (den.map env) (den.map G) i) *
          (normGradient (num.map env) (num.map G) j - normGradient (den.map env) (den.map G) j))
  | exponential e => fun i j => Real.exp (env e) * (H e i j + G e i * G e j)

theorem hessStep_ok (d : Dict ℝ) (recurG : String → Except PyErr (ι → ℝ))
    (recurH : String → Except PyErr (ι → ι → ℝ))
    (name : String) (e : Expr) (G : String → ι → ℝ) (H : String → ι → ι → ℝ)
    (hd : ∀ k ∈ e.deps name, k ∈ d.keys) (hz : e.factorsOk (look d))
    (hG : e ≠ single → ∀ k ∈ e.deps name, recurG k = .ok (G k))
    (hH : e ≠ single → ∀ k ∈ e.deps name, recurH k = .ok (H k)) :
    e.hessStep d recurG recurH = .ok (e.thess (look d) G H) := by
  cases e with
  | number w => simp [hessStep, thess]
  | single => simp [hessStep, thess]
  | linear nominal coeffs =>
    have hH := hH (by simp)
    simp only [deps] at hH
    simp only [hessStep, thess, mapM_map_ok hH, bind_ok, pure_ok, Except.ok.injEq]
    funext i j
    rw [Dict.keys, List.map_map, zipWith_map_self]; rfl
  | prodRatio pre num den =>
    have hG := hG (by simp)
    have hH := hH (by simp)
    simp only [deps, factorsOk] at hd hG hH hz
    simp only [hessStep, thess]
    rw [lookups_ok (fun k hk => hd k (by simp [hk])), lookups_ok (fun k hk => hd k (by simp [hk])),
      mapM_map_ok (fun k hk => hG k (by simp [hk])), mapM_map_ok (fun k hk => hG k (by simp [hk])),
      mapM_map_ok (fun k hk => hH k (by simp [hk])), mapM_map_ok (fun k hk => hH k (by simp [hk]))]
    simp only [bind_ok, pure_ok]
    rw [if_neg (by push Not; exact hz)]
  | exponential e =>
    have hG := hG (by simp)
    have hH := hH (by simp)
    simp only [deps, List.mem_singleton, forall_eq] at hd hG hH
    obtain ⟨v, hv⟩ := (Dict.mem_keys_iff d e).1 hd
    have hv' : d.getItem e = .ok v := Dict.getItem_ok.2 hv
    simp [hessStep, thess, hG, hH, hv', look, hv]

/-- `thess` is the derivative of `tgrad`. -/
theorem hasGrad_tgrad (pois : ι → String) (val : String → (ι → ℝ) → ℝ)
    (G : String → (ι → ℝ) → ι → ℝ) (H : String → ι → ι → ℝ)
    (x : ι → ℝ) (name : String) (e : Expr) (hs : e ≠ single)
    (hz : e.factorsOk (fun k => val k x))
    (h : ∀ k ∈ e.deps name, HasGrad (val k) (G k x) x)
    (hG : ∀ k ∈ e.deps name, ∀ j, HasGrad (fun y => G k y j) (fun i => H k i j) x) (j : ι) :
    HasGrad (fun y => e.tgrad pois (fun k => val k y) (fun k => G k y) name j)
      (fun i => e.thess (fun k => val k x) (fun k => G k x) H i j) x := by
  cases e with
  | number w => exact hasGrad_const 0 x
  | single => exact absurd rfl hs
  | linear nominal coeffs =>
    apply HasGrad.list_sum coeffs (fun kc y => kc.2 * G kc.1 y j) (fun kc i => kc.2 * H kc.1 i j)
    intro kc hkc
    exact (hG kc.1 (List.mem_map.2 ⟨kc, hkc, rfl⟩) j).const_mul kc.2
  | prodRatio pre num den =>
    simp only [factorsOk, deps] at hz h hG
    have hnN : ∀ k ∈ num, val k x ≠ 0 := fun k hk h0 =>
      hz.1 (List.prod_eq_zero (List.mem_map.2 ⟨k, hk, h0⟩))
    have hnD : ∀ k ∈ den, val k x ≠ 0 := fun k hk h0 =>
      hz.2 (List.prod_eq_zero (List.mem_map.2 ⟨k, hk, h0⟩))
    -- near x the gradient is value * (norm num - norm den)
    have hev : ∀ (l : List String), (∀ k ∈ l, val k x ≠ 0) → (∀ k ∈ l, k ∈ num ++ den) →
        ∀ᶠ y in 𝓝 x, ∀ k ∈ l, val k y ≠ 0 := by
      intro l
      induction l with
      | nil => intro _ _; simp
      | cons a l ih =>
        intro h1 h2
        have ha := (h a (h2 a (by simp))).continuousAt.eventually_ne (h1 a (by simp))
        filter_upwards [ha, ih (fun k hk => h1 k (by simp [hk])) (fun k hk => h2 k (by simp [hk]))]
          with y hy1 hy2 k hk
        rcases List.mem_cons.1 hk with rfl | hk
        · exact hy1
        · exact hy2 k hk
    have hnorm : ∀ (l : List String), (∀ k ∈ l, val k x ≠ 0) → (∀ k ∈ l, k ∈ num ++ den) →
        HasGrad (fun y => (l.map (fun k => G k y j / val k y)).sum)
          (fun i => (l.map (fun k => (H k i j - G k x j * G k x i / val k x) / val k x)).sum) x := by
      intro l h1 h2
      apply HasGrad.list_sum l (fun k y => G k y j / val k y)
        (fun k i => (H k i j - G k x j * G k x i / val k x) / val k x)
      intro k hk
      have := (hG k (h2 k hk) j).div (h k (h2 k hk)) (h1 k hk)
      have e : (fun i => (H k i j * val k x - G k x j * G k x i) / val k x ^ 2) =
          fun i => (H k i j - G k x j * G k x i / val k x) / val k x := by
        have := h1 k hk
        funext i; field_simp
      rw [e] at this; exact this
    have hV := hasGrad_tval pois val (fun k => G k x) x name (.prodRatio pre num den) (by simp)
      (by simpa [denOk] using hz.2) (by simpa [deps] using h)
    have hN := hnorm num hnN (fun k hk => by simp [hk])
    have hDn := hnorm den hnD (fun k hk => by simp [hk])
    have hmul := hV.mul (hN.sub hDn)
    have heq : (fun y => (Expr.prodRatio pre num den).tgrad pois (fun k => val k y) (fun k => G k y) name j)
        =ᶠ[𝓝 x] fun y => (Expr.prodRatio pre num den).tval (fun k => val k y) name *
          ((num.map (fun k => G k y j / val k y)).sum - (den.map (fun k => G k y j / val k y)).sum) := by
      filter_upwards [hev num hnN (fun k hk => by simp [hk]), hev den hnD (fun k hk => by simp [hk])]
        with y hy1 hy2
      simp only [tgrad, tval]
      rw [prodGradient_eq_norm num (fun k => val k y) (fun k => G k y) hy1, normGradient_map]
      have : (den.map (fun k => val k y)).prod ≠ 0 := by
        rw [Ne, List.prod_eq_zero_iff]; rintro hm
        obtain ⟨k, hk, h0⟩ := List.mem_map.1 hm
        exact hy2 k hk h0
      field_simp
    refine (HasGrad.congr ?_ heq)
    convert hmul using 1
    funext i
    simp only [thess, tval, tgrad]
    rw [prodGradient_eq_norm num (fun k => val k x) (fun k => G k x) hnN]
    simp only [normGradient_map, normHessian_map]
    have := hz.2
    field_simp
    ring
  | exponential e =>
    simp only [deps, List.mem_singleton, forall_eq] at h hG
    have := (h.exp).mul (hG j)
    simp only [tgrad, thess]
    convert this using 1
    funext i; ring

/-! ### monotonicity in the environment -/

theorem gradStep_mono {pois : ι → String} {d d' : Dict ℝ} {r r' : String → Except PyErr (ι → ℝ)}
    {name : String} {e : Expr} {g : ι → ℝ}
    (hd : ∀ k v, d.get? k = some v → d'.get? k = some v)
    (hr : ∀ k g, r k = .ok g → r' k = .ok g)
    (h : e.gradStep pois d r name = .ok g) : e.gradStep pois d' r' name = .ok g := by
  have hl : ∀ names vs, lookups d names = .ok vs → lookups d' names = .ok vs := by
    intro names vs h
    unfold lookups at *
    rw [mapM_ok_iff] at *
    exact h.imp (fun a b hab => Dict.getItem_ok.2 (hd a b (Dict.getItem_ok.1 hab)))
  have hm : ∀ (names : List String) gs, names.mapM r = .ok gs → names.mapM r' = .ok gs := by
    intro names gs h
    rw [mapM_ok_iff] at *
    exact h.imp (fun a b hab => hr a b hab)
  cases e with
  | number w => exact h
  | single => exact h
  | linear nominal coeffs =>
    simp only [gradStep] at *
    rw [bind_eq_ok] at *
    obtain ⟨gs, h1, h2⟩ := h
    exact ⟨gs, hm _ _ h1, h2⟩
  | prodRatio pre num den =>
    simp only [gradStep] at h ⊢
    obtain ⟨a, ha, h⟩ := bind_eq_ok.1 h
    obtain ⟨b, hb, h⟩ := bind_eq_ok.1 h
    obtain ⟨c, hc, h⟩ := bind_eq_ok.1 h
    obtain ⟨e, he, h⟩ := bind_eq_ok.1 h
    rw [hl _ _ ha, bind_ok, hm _ _ hb, bind_ok, hl _ _ hc, bind_ok, hm _ _ he, bind_ok]
    exact h
  | exponential e =>
    simp only [gradStep] at h ⊢
    obtain ⟨a, ha, h⟩ := bind_eq_ok.1 h
    obtain ⟨b, hb, h⟩ := bind_eq_ok.1 h
    rw [hr _ _ ha, bind_ok, Dict.getItem_ok.2 (hd _ _ (Dict.getItem_ok.1 hb)), bind_ok]
    exact h

theorem gradient_mono {pois : ι → String} {R R' : Dict Expr} {d d' : Dict ℝ}
    (hR : ∀ k e, R.get? k = some e → R'.get? k = some e)
    (hd : ∀ k v, d.get? k = some v → d'.get? k = some v) (fuel fuel' : Nat) (hf : fuel ≤ fuel')
    (name : String) (g : ι → ℝ)
    (h : gradient pois R d fuel name = .ok g) : gradient pois R' d' fuel' name = .ok g := by
  induction fuel generalizing fuel' name g with
  | zero => simp [gradient] at h
  | succ fuel ih =>
    cases fuel' with
    | zero => omega
    | succ fuel' =>
      simp only [gradient] at h ⊢
      obtain ⟨e, he, h⟩ := bind_eq_ok.1 h
      rw [Dict.getItem_ok.2 (hR _ _ (Dict.getItem_ok.1 he)), bind_ok]
      exact gradStep_mono hd (fun k g hg => ih fuel' (by omega) k g hg) h

theorem hessStep_mono {d d' : Dict ℝ} {r r' : String → Except PyErr (ι → ℝ)}
    {s s' : String → Except PyErr (ι → ι → ℝ)} {e : Expr} {g : ι → ι → ℝ}
    (hd : ∀ k v, d.get? k = some v → d'.get? k = some v)
    (hr : ∀ k g, r k = .ok g → r' k = .ok g) (hs : ∀ k g, s k = .ok g → s' k = .ok g)
    (h : e.hessStep d r s = .ok g) : e.hessStep d' r' s' = .ok g := by
  have hl : ∀ names vs, lookups d names = .ok vs → lookups d' names = .ok vs := by
    intro names vs h
    unfold lookups at *
    rw [mapM_ok_iff] at *
    exact h.imp (fun a b hab => Dict.getItem_ok.2 (hd a b (Dict.getItem_ok.1 hab)))
  have hm : ∀ (names : List String) gs, names.mapM r = .ok gs → names.mapM r' = .ok gs := by
    intro names gs h
    rw [mapM_ok_iff] at *
    exact h.imp (fun a b hab => hr a b hab)
  have hm' : ∀ (names : List String) gs, names.mapM s = .ok gs → names.mapM s' = .ok gs := by
    intro names gs h
    rw [mapM_ok_iff] at *
    exact h.imp (fun a b hab => hs a b hab)
  cases e with
  | number w => exact h
  | single => exact h
  | linear nominal coeffs =>
    simp only [hessStep] at *
    rw [bind_eq_ok] at *
    obtain ⟨gs, h1, h2⟩ := h
    exact ⟨gs, hm' _ _ h1, h2⟩
  | prodRatio pre num den =>
    simp only [hessStep] at h ⊢
    obtain ⟨a, ha, h⟩ := bind_eq_ok.1 h
    obtain ⟨b, hb, h⟩ := bind_eq_ok.1 h
    obtain ⟨b', hb', h⟩ := bind_eq_ok.1 h
    obtain ⟨c, hc, h⟩ := bind_eq_ok.1 h
    obtain ⟨e, he, h⟩ := bind_eq_ok.1 h
    obtain ⟨e', he', h⟩ := bind_eq_ok.1 h
    rw [hl _ _ ha, bind_ok, hm _ _ hb, bind_ok, hm' _ _ hb', bind_ok, hl _ _ hc, bind_ok,
      hm _ _ he, bind_ok, hm' _ _ he', bind_ok]
    exact h
  | exponential e =>
    simp only [hessStep] at h ⊢
    obtain ⟨a, ha, h⟩ := bind_eq_ok.1 h
    obtain ⟨b, hb, h⟩ := bind_eq_ok.1 h
    obtain ⟨c, hc, h⟩ := bind_eq_ok.1 h
    rw [hr _ _ ha, bind_ok, Dict.getItem_ok.2 (hd _ _ (Dict.getItem_ok.1 hb)), bind_ok,
      hs _ _ hc, bind_ok]
    exact h

theorem hessian_mono {pois : ι → String} {R R' : Dict Expr} {d d' : Dict ℝ}
    (hR : ∀ k e, R.get? k = some e → R'.get? k = some e)
    (hd : ∀ k v, d.get? k = some v → d'.get? k = some v) (fuel fuel' : Nat) (hf : fuel ≤ fuel')
    (name : String) (g : ι → ι → ℝ)
    (h : hessian pois R d fuel name = .ok g) : hessian pois R' d' fuel' name = .ok g := by
  induction fuel generalizing fuel' name g with
  | zero => simp [hessian] at h
  | succ fuel ih =>
    cases fuel' with
    | zero => omega
    | succ fuel' =>
      simp only [hessian] at h ⊢
      obtain ⟨e, he, h⟩ := bind_eq_ok.1 h
      rw [Dict.getItem_ok.2 (hR _ _ (Dict.getItem_ok.1 he)), bind_ok]
      exact hessStep_mono hd (fun k g hg => gradient_mono hR hd fuel fuel' (by omega) k g hg)
        (fun k g hg => ih fuel' (by omega) k g hg) h

end Expr
end Verif
