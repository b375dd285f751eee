import Verif.Model.Reparam
import Verif.Lemmas.ExprCtx
/-! Lemmas on `replace` and `remove_pois`. -/
namespace Verif
namespace Expr

/-- `env` satisfies the equations of the expressions. -/
def Solves (env : String → ℝ) (S : Dict Expr) : Prop :=
  ∀ nm e, S.get? nm = some e → e.denOk env ∧ env nm = e.tval env nm

/-- Every expression refers to names of lower rank. -/
def Ranked (rank : String → Nat) (S : Dict Expr) : Prop :=
  ∀ nm e, S.get? nm = some e → ∀ k ∈ e.deps nm, rank k < rank nm

/-- The names that become numbers when `name` is replaced. -/
inductive Triv (name : String) (S : Dict Expr) : String → Prop
  | par : S.get? name = none → Triv name S name
  | lin {nm nom cs} : S.get? nm = some (.linear nom cs) → (∀ k ∈ Dict.keys cs, Triv name S k) →
      Triv name S nm
  | prod {nm pre} : S.get? nm = some (.prodRatio pre [] []) → Triv name S nm
  | exp {nm e} : S.get? nm = some (.exponential e) → Triv name S e → Triv name S nm

/-- What a step may do. -/
structure Step (env : String → ℝ) (name : String) (S S' : Dict Expr) : Prop where
  keys : S'.keys = S.keys
  deps : ∀ m e', S'.get? m = some e' → ∃ e, S.get? m = some e ∧ ∀ k ∈ e'.deps m, k ∈ e.deps m
  solves : Solves env S'
  triv : ∀ m, Triv name S m ↔ Triv name S' m

theorem Step.refl {env : String → ℝ} {name : String} {S : Dict Expr} (h : Solves env S) : Step env name S S :=
  ⟨rfl, fun _ e' h => ⟨e', h, fun _ h => h⟩, h, fun _ => Iff.rfl⟩

theorem Step.trans {env : String → ℝ} {name : String} {S S' S'' : Dict Expr} (h1 : Step env name S S')
    (h2 : Step env name S' S'') : Step env name S S'' := by
  refine ⟨h2.keys.trans h1.keys, ?_, h2.solves, fun m => (h1.triv m).trans (h2.triv m)⟩
  intro m e'' h
  obtain ⟨e', he', hd'⟩ := h2.deps m e'' h
  obtain ⟨e, he, hd⟩ := h1.deps m e' he'
  exact ⟨e, he, fun k hk => hd k (hd' k hk)⟩

theorem Ranked.step {env : String → ℝ} {name : String} {rank : String → Nat} {S S' : Dict Expr}
    (h : Ranked rank S) (hs : Step env name S S') : Ranked rank S' := by
  intro nm e' he' k hk
  obtain ⟨e, he, hd⟩ := hs.deps nm e' he'
  exact h nm e he k (hd k hk)

/-- Specification of one call of `replace` on `nm`. -/
structure CallSpec (env : String → ℝ) (name : String) (rank : String → Nat) (S : Dict Expr) (nm : String)
    (r : Dict Expr × Option ℝ) : Prop where
  step : Step env name S r.1
  high : ∀ m, rank nm < rank m → r.1.get? m = S.get? m
  some : ∀ v, r.2 = some v → env nm = v ∧ Triv name S nm
  none : r.2 = none → ¬ Triv name S nm ∧
    ∀ e', r.1.get? nm = .some e' → ∀ k ∈ e'.deps nm, ¬ Triv name S k

/-- Specification of a loop. -/
structure LoopSpec (env : String → ℝ) (name : String) (rank : String → Nat) (S : Dict Expr) (cs : Dict ℝ)
    (R : Nat) (o : LoopOut) : Prop where
  step : Step env name S o.state
  high : ∀ m, R ≤ rank m → o.state.get? m = S.get? m
  sum : (cs.map (fun kc => kc.2 * env kc.1)).sum =
    (o.removed.map (fun p => p.1 * p.2)).sum + (o.kept.map (fun kc => kc.2 * env kc.1)).sum
  kept : ∀ k ∈ Dict.keys o.kept, k ∈ Dict.keys cs ∧ ¬ Triv name S k
  all : ∀ k ∈ Dict.keys cs, k ∈ Dict.keys o.kept ∨ Triv name S k
  count : o.removed.length + o.kept.length = cs.length
  removed : o.removed = [] → o.kept = cs

theorem replaceLoop_spec {env : String → ℝ} {name : String} {rank : String → Nat}
    {rec : Dict Expr → String → Except PyErr (Dict Expr × Option ℝ)}
    (hrec : ∀ S nm r, Ranked rank S → Solves env S → rec S nm = .ok r → CallSpec env name rank S nm r)
    (R : Nat) (cs : Dict ℝ) (hR : ∀ k ∈ Dict.keys cs, rank k < R) (S : Dict Expr) (o : LoopOut)
    (hS : Ranked rank S) (hE : Solves env S) (h : replaceLoop rec S cs = .ok o) :
    LoopSpec env name rank S cs R o := by
  induction cs generalizing S o with
  | nil =>
    simp only [replaceLoop, Except.ok.injEq] at h
    subst h
    exact ⟨Step.refl hE, fun _ _ => rfl, by simp, by simp [Dict.keys], by simp [Dict.keys],
      rfl, fun _ => rfl⟩
  | cons a cs ih =>
    obtain ⟨k, c⟩ := a
    simp only [replaceLoop] at h
    obtain ⟨r, hr, h⟩ := bind_eq_ok.1 h
    obtain ⟨o', ho', h⟩ := bind_eq_ok.1 h
    have C := hrec S k r hS hE hr
    have L := ih (fun j hj => hR j (by simp [Dict.keys] at hj ⊢; exact Or.inr hj)) r.1 o'
      (hS.step C.step) C.step.solves ho'
    have hk : rank k < R := hR k (by simp [Dict.keys])
    have hkeys : ∀ j, j ∈ Dict.keys ((k, c) :: cs) ↔ j = k ∨ j ∈ Dict.keys cs := by
      intro j; simp [Dict.keys]
    cases hr2 : r.2 with
    | some v =>
      rw [hr2] at h
      simp only [pure_ok, Except.ok.injEq] at h
      subst h
      obtain ⟨hv, ht⟩ := C.some v hr2
      refine ⟨C.step.trans L.step, ?_, ?_, ?_, ?_, ?_, by simp⟩
      · intro m hm; rw [L.high m hm, C.high m (by omega)]
      · simp only [List.map_cons, List.sum_cons, L.sum, hv]; ring
      · intro j hj
        obtain ⟨h1, h2⟩ := L.kept j hj
        exact ⟨(hkeys j).2 (Or.inr h1), fun t => h2 ((C.step.triv j).1 t)⟩
      · intro j hj
        rcases (hkeys j).1 hj with rfl | hj
        · exact Or.inr ht
        · exact (L.all j hj).imp id (fun t => (C.step.triv j).2 t)
      · have := L.count; simp only [List.length_cons]; omega
    | none =>
      rw [hr2] at h
      simp only [pure_ok, Except.ok.injEq] at h
      subst h
      obtain ⟨ht, _⟩ := C.none hr2
      have hkeys' : ∀ j, j ∈ Dict.keys ((k, c) :: o'.kept) ↔ j = k ∨ j ∈ Dict.keys o'.kept := by
        intro j; simp [Dict.keys]
      refine ⟨C.step.trans L.step, ?_, ?_, ?_, ?_, ?_, ?_⟩
      · intro m hm; rw [L.high m hm, C.high m (by omega)]
      · simp only [List.map_cons, List.sum_cons, L.sum]; ring
      · intro j hj
        rcases (hkeys' j).1 hj with rfl | hj
        · exact ⟨(hkeys j).2 (Or.inl rfl), ht⟩
        · obtain ⟨h1, h2⟩ := L.kept j hj
          exact ⟨(hkeys j).2 (Or.inr h1), fun t => h2 ((C.step.triv j).1 t)⟩
      · intro j hj
        rcases (hkeys j).1 hj with rfl | hj
        · exact Or.inl ((hkeys' j).2 (Or.inl rfl))
        · exact (L.all j hj).imp (fun t => (hkeys' j).2 (Or.inr t)) (fun t => (C.step.triv j).2 t)
      · have := L.count; simp only [List.length_cons]; omega
      · intro he; rw [L.removed he]

theorem replace_spec {env : String → ℝ} {params : List String} {name : String} {value : Option ℝ}
    {rank : String → Nat} (hv : ∀ v, value = some v → env name = v) (fuel : Nat) (S : Dict Expr)
    (nm : String) (r : Dict Expr × Option ℝ) (hS : Ranked rank S) (hE : Solves env S)
    (h : replace params name value fuel S nm = .ok r) : CallSpec env name rank S nm r := by
  induction fuel generalizing S nm r with
  | zero => simp [replace] at h
  | succ fuel ih =>
    simp only [replace] at h
    obtain ⟨e, he, h⟩ := bind_eq_ok.1 h
    have hrec := fun S nm r a b c => ih S nm r a b c
    cases hg : S.get? nm with
    | none =>
      simp only [find, hg] at he
      split_ifs at he with hp
      · cases he
        simp only at h
        by_cases hn : nm = name
        · subst hn
          rw [if_pos rfl] at h
          cases value with
          | none => simp at h
          | some v =>
            simp only [pure_ok, Except.ok.injEq] at h
            subst h
            refine ⟨Step.refl hE, fun _ _ => rfl, ?_, by simp⟩
            intro w hw; cases hw
            exact ⟨hv v rfl, .par hg⟩
        · rw [if_neg hn] at h
          simp only [pure_ok, Except.ok.injEq] at h
          subst h
          refine ⟨Step.refl hE, fun _ _ => rfl, by simp, fun _ => ⟨?_, ?_⟩⟩
          · intro t
            cases t with
            | par _ => exact hn rfl
            | lin hq _ => rw [hg] at hq; cases hq
            | prod hq => rw [hg] at hq; cases hq
            | exp hq _ => rw [hg] at hq; cases hq
          · intro e' he'; simp only at he'; rw [hg] at he'; cases he'
    | some e0 =>
      simp only [find, hg, Except.ok.injEq] at he
      subst he
      obtain ⟨hden, hval⟩ := hE nm e0 hg
      cases e0 with
      | number w =>
        simp only [pure_ok, Except.ok.injEq] at h
        subst h
        refine ⟨Step.refl hE, fun _ _ => rfl, by simp, fun _ => ⟨?_, ?_⟩⟩
        · intro t
          cases t with
          | par hq => rw [hg] at hq; cases hq
          | lin hq _ => rw [hg] at hq; cases hq
          | prod hq => rw [hg] at hq; cases hq
          | exp hq _ => rw [hg] at hq; cases hq
        · intro e' he'; simp only at he'; rw [hg] at he'; cases he'; simp [deps]
      | single =>
        exact absurd (hS nm _ hg nm (by simp [deps])) (lt_irrefl _)
      | linear nom cs =>
        simp only at h
        obtain ⟨o, ho, h⟩ := bind_eq_ok.1 h
        simp only [pure_ok, Except.ok.injEq] at h
        subst h
        have L := replaceLoop_spec hrec (rank nm) cs (fun k hk => hS nm _ hg k hk) S o hS hE ho
        have hs1 : o.state.get? nm = some (.linear nom cs) := by rw [L.high nm le_rfl, hg]
        have hset : ∀ m, (o.state.set nm (.linear (nom + (o.removed.map (fun p => p.1 * p.2)).sum) o.kept)).get? m
            = if nm = m then some (.linear (nom + (o.removed.map (fun p => p.1 * p.2)).sum) o.kept) else o.state.get? m :=
          fun m => Dict.get?_set _ _ _ _
        have hstep : Step env name S (replaceLinear nm nom o).1 := by
          refine L.step.trans ⟨?_, ?_, ?_, ?_⟩
          · simp only [replaceLinear]
            rw [Dict.keys_set, if_pos ((Dict.mem_keys_iff _ _).2 ⟨_, hs1⟩)]
          · intro m e' he'
            simp only [replaceLinear] at he'
            rw [hset] at he'
            split_ifs at he' with hm
            · cases he'; subst hm
              exact ⟨_, hs1, fun k hk => (L.kept k hk).1⟩
            · exact ⟨e', he', fun _ h => h⟩
          · intro m e' he'
            simp only [replaceLinear] at he'
            rw [hset] at he'
            split_ifs at he' with hm
            · cases he'; subst hm
              refine ⟨trivial, ?_⟩
              rw [hval]; simp only [tval]; rw [L.sum]; ring
            · exact L.step.solves m e' he'
          · intro m
            constructor
            · intro t
              induction t with
              | par h =>
                refine .par ?_
                simp only [replaceLinear]; rw [hset]
                split_ifs with hm
                · subst hm; rw [hs1] at h; cases h
                · exact h
              | lin h _ ih =>
                rename_i m' nom' cs' _
                by_cases hm : nm = m'
                · subst hm
                  rw [hs1] at h; cases h
                  refine .lin (nom := nom + (o.removed.map (fun p => p.1 * p.2)).sum) (cs := o.kept) ?_ (fun k hk => ih k (L.kept k hk).1)
                  simp only [replaceLinear]; rw [hset, if_pos rfl]
                · refine .lin (nom := nom') (cs := cs') ?_ ih
                  simp only [replaceLinear]; rw [hset, if_neg hm]; exact h
              | prod h =>
                rename_i m' pre
                refine .prod (pre := pre) ?_
                simp only [replaceLinear]; rw [hset, if_neg (by rintro rfl; rw [hs1] at h; cases h)]; exact h
              | exp h _ ih =>
                rename_i m' e _
                refine .exp (e := e) ?_ ih
                simp only [replaceLinear]; rw [hset, if_neg (by rintro rfl; rw [hs1] at h; cases h)]; exact h
            · intro t
              simp only [replaceLinear] at t
              induction t with
              | par h =>
                refine .par ?_
                rw [hset] at h
                split_ifs at h with hm
                exact h
              | lin h _ ih =>
                rename_i m' nom' cs' _
                rw [hset] at h
                split_ifs at h with hm
                · cases h; subst hm
                  refine .lin hs1 (fun k hk => ?_)
                  rcases L.all k hk with h | h
                  · exact ih k h
                  · exact (L.step.triv k).1 h
                · exact .lin h ih
              | prod h =>
                rw [hset] at h
                split_ifs at h with hm
                · cases h
                · exact .prod h
              | exp h _ ih =>
                rw [hset] at h
                split_ifs at h with hm
                · cases h
                · exact .exp h ih
        refine ⟨hstep, ?_, ?_, ?_⟩
        · intro m hm
          simp only [replaceLinear]
          rw [hset, if_neg (by rintro rfl; omega), L.high m (by omega)]
        · intro v hv'
          simp only [replaceLinear] at hv'
          split_ifs at hv' with hk
          cases hv'
          refine ⟨?_, .lin hg (fun k hk' => ?_)⟩
          · rw [hval]; simp only [tval]; rw [L.sum, hk]; simp
          · rcases L.all k hk' with h | h
            · rw [hk] at h; simp [Dict.keys] at h
            · exact h
        · intro hn
          simp only [replaceLinear] at hn
          split_ifs at hn with hk
          constructor
          · intro t
            cases t with
            | par hq => rw [hg] at hq; cases hq
            | lin h hall =>
              rw [hg] at h; cases h
              cases hkept : o.kept with
              | nil => exact hk hkept
              | cons a l =>
                have := L.kept a.1 (by rw [hkept]; simp [Dict.keys])
                exact this.2 (hall _ this.1)
            | prod hq => rw [hg] at hq; cases hq
            | exp hq _ => rw [hg] at hq; cases hq
          · intro e' he' k hk'
            simp only [replaceLinear] at he'
            rw [hset, if_pos rfl] at he'
            cases he'
            exact (L.kept k hk').2
      | prodRatio pre num den =>
        simp only [replaceProd] at h
        obtain ⟨o1, ho1, h⟩ := bind_eq_ok.1 h
        have hk1 : Dict.keys (num.map (fun k => (k, (1:ℝ)))) = num := by
          simp [Dict.keys, Function.comp_def]
        have hk2 : Dict.keys (den.map (fun k => (k, (1:ℝ)))) = den := by
          simp [Dict.keys, Function.comp_def]
        have L1 := replaceLoop_spec hrec (rank nm) _ (fun k hk => hS nm _ hg k (by
          rw [hk1] at hk; simp [deps, hk])) S o1 hS hE ho1
        by_cases h1 : o1.removed ≠ []
        · rw [if_pos h1] at h; simp at h
        rw [if_neg h1] at h
        simp only [pure_ok, bind_ok] at h
        obtain ⟨o2, ho2, h⟩ := bind_eq_ok.1 h
        have L2 := replaceLoop_spec hrec (rank nm) _ (fun k hk => hS nm _ hg k (by
          rw [hk2] at hk; simp [deps, hk])) o1.state o2 (hS.step L1.step) L1.step.solves ho2
        by_cases h2 : ∃ p ∈ o2.removed, p.2 = 0
        · rw [if_pos h2] at h; simp at h
        rw [if_neg h2] at h
        by_cases h3 : o2.removed ≠ []
        · rw [if_pos h3] at h; simp at h
        rw [if_neg h3] at h
        simp only [bind_ok, pure_ok, Except.ok.injEq] at h
        subst h
        push Not at h1 h3
        have e1 := L1.removed h1
        have e2 := L2.removed h3
        have n1 : ∀ k ∈ num, ¬ Triv name S k := by
          intro k hk
          refine (L1.kept k ?_).2
          rw [e1, hk1]; exact hk
        have n2 : ∀ k ∈ den, ¬ Triv name S k := by
          intro k hk t
          refine (L2.kept k ?_).2 ((L1.step.triv k).1 t)
          rw [e2, hk2]; exact hk
        refine ⟨L1.step.trans L2.step, ?_, ?_, ?_⟩
        · intro m hm; rw [L2.high m (by omega), L1.high m (by omega)]
        · intro v hv'
          simp only at hv'
          split_ifs at hv' with hk
          cases hv'
          have hnum : num = [] := by cases num with
            | nil => rfl
            | cons a l => simp at hk
          have hden' : den = [] := by cases den with
            | nil => rfl
            | cons a l => simp at hk
          subst hnum; subst hden'
          refine ⟨?_, .prod hg⟩
          rw [hval]; simp [tval]
        · intro hn
          simp only at hn
          split_ifs at hn with hk
          constructor
          · intro t
            cases t with
            | par hq => rw [hg] at hq; cases hq
            | lin hq _ => rw [hg] at hq; cases hq
            | prod hq => rw [hg] at hq; cases hq; simp at hk
            | exp hq _ => rw [hg] at hq; cases hq
          · intro e' he' k hk'
            simp only at he'
            rw [L2.high nm le_rfl, L1.high nm le_rfl, hg] at he'
            cases he'
            rcases List.mem_append.1 hk' with h | h
            · exact n1 k h
            · exact n2 k h
      | exponential e =>
        simp only at h
        obtain ⟨r', hr', h⟩ := bind_eq_ok.1 h
        simp only [pure_ok, Except.ok.injEq] at h
        subst h
        have C := ih S e r' hS hE hr'
        have hlt : rank e < rank nm := hS nm _ hg e (by simp [deps])
        refine ⟨C.step, fun m hm => C.high m (by omega), ?_, ?_⟩
        · intro v hv'
          simp only [Option.map_eq_some_iff] at hv'
          obtain ⟨w, hw, rfl⟩ := hv'
          obtain ⟨h1, h2⟩ := C.some w hw
          exact ⟨by rw [hval]; simp only [tval]; rw [h1], .exp hg h2⟩
        · intro hn
          simp only [Option.map_eq_none_iff] at hn
          obtain ⟨h1, _⟩ := C.none hn
          constructor
          · intro t
            cases t with
            | par hq => rw [hg] at hq; cases hq
            | lin hq _ => rw [hg] at hq; cases hq
            | prod hq => rw [hg] at hq; cases hq
            | exp h t => rw [hg] at h; cases h; exact h1 t
          · intro e' he' k hk
            simp only at he'
            rw [C.high nm hlt, hg] at he'
            cases he'
            simp only [deps, List.mem_singleton] at hk
            subst hk; exact h1

/-- No product or ratio among the expressions. -/
def NoProd (S : Dict Expr) : Prop := ∀ nm pre num den, S.get? nm ≠ some (.prodRatio pre num den)

/-- All references can be resolved. -/
def Closed (params : List String) (S : Dict Expr) : Prop :=
  ∀ nm e, S.get? nm = some e → ∀ k ∈ e.deps nm, k ∈ params ∨ k ∈ S.keys

theorem Closed.step {env : String → ℝ} {name : String} {params : List String} {S S' : Dict Expr}
    (h : Closed params S) (hs : Step env name S S') : Closed params S' := by
  intro nm e' he' k hk
  obtain ⟨e, he, hd⟩ := hs.deps nm e' he'
  rw [hs.keys]
  exact h nm e he k (hd k hk)

theorem replaceLoop_total {env : String → ℝ} {name : String} {params : List String} {rank : String → Nat}
    {rec : Dict Expr → String → Except PyErr (Dict Expr × Option ℝ)} {R : Nat}
    (hrec : ∀ S nm r, Ranked rank S → Solves env S → rec S nm = .ok r → CallSpec env name rank S nm r)
    (htot : ∀ S nm, Ranked rank S → Solves env S → NoProd S → Closed params S →
      (nm ∈ params ∨ nm ∈ S.keys) → rank nm < R → ∃ r, rec S nm = .ok r ∧ NoProd r.1)
    (cs : Dict ℝ) (hR : ∀ k ∈ Dict.keys cs, rank k < R) (S : Dict Expr)
    (hS : Ranked rank S) (hE : Solves env S) (hN : NoProd S) (hC : Closed params S)
    (hk : ∀ k ∈ Dict.keys cs, k ∈ params ∨ k ∈ S.keys) :
    ∃ o, replaceLoop rec S cs = .ok o ∧ NoProd o.state := by
  induction cs generalizing S with
  | nil => exact ⟨_, rfl, hN⟩
  | cons a cs ih =>
    obtain ⟨k, c⟩ := a
    obtain ⟨r, hr, hN'⟩ := htot S k hS hE hN hC (hk k (by simp [Dict.keys])) (hR k (by simp [Dict.keys]))
    have C := hrec S k r hS hE hr
    obtain ⟨o, ho, hNo⟩ := ih (fun j hj => hR j (by simp [Dict.keys] at hj ⊢; exact Or.inr hj)) r.1
      (hS.step C.step) C.step.solves hN' (hC.step C.step) (fun j hj => by
        rw [C.step.keys]; exact hk j (by simp [Dict.keys] at hj ⊢; exact Or.inr hj))
    simp only [replaceLoop, hr, ho, bind_ok]
    cases r.2 with
    | some v => exact ⟨_, rfl, hNo⟩
    | none => exact ⟨_, rfl, hNo⟩

theorem replace_total {env : String → ℝ} {params : List String} {name : String} {v : ℝ}
    {rank : String → Nat} (hv : env name = v) (fuel : Nat) (S : Dict Expr)
    (nm : String) (hS : Ranked rank S) (hE : Solves env S) (hN : NoProd S) (hC : Closed params S)
    (hk : nm ∈ params ∨ nm ∈ S.keys) (hf : rank nm < fuel) :
    ∃ r, replace params name (some v) fuel S nm = .ok r ∧ NoProd r.1 := by
  induction fuel generalizing S nm with
  | zero => omega
  | succ fuel ih =>
    simp only [replace, find]
    cases hg : S.get? nm with
    | none =>
      have hp : nm ∈ params := hk.resolve_right ((Dict.get?_eq_none_iff _ _).1 hg)
      simp only [if_pos hp, bind_ok]
      split_ifs
      · exact ⟨_, rfl, hN⟩
      · exact ⟨_, rfl, hN⟩
    | some e0 =>
      simp only [bind_ok]
      cases e0 with
      | number w => exact ⟨_, rfl, hN⟩
      | single => exact absurd (hS nm _ hg nm (by simp [deps])) (lt_irrefl _)
      | linear nom cs =>
        obtain ⟨o, ho, hNo⟩ := replaceLoop_total (R := fuel)
          (fun S nm r a b c => replace_spec (value := some v) (fun w hw => by cases hw; exact hv) fuel S nm r a b c)
          (fun S nm a b c d e f => ih S nm a b c d e f) cs
          (fun k hk => by have := hS nm _ hg k hk; omega) S hS hE hN hC
          (fun k hk => hC nm _ hg k hk)
        refine ⟨_, by simp only [ho, bind_ok]; rfl, ?_⟩
        intro m pre num den hm
        simp only [replaceLinear] at hm
        rw [Dict.get?_set] at hm
        split_ifs at hm with h1
        · cases hm
        · exact hNo m pre num den hm
      | prodRatio pre num den => exact absurd hg (hN nm pre num den)
      | exponential e =>
        have hlt := hS nm _ hg e (by simp [deps])
        obtain ⟨r, hr, hNr⟩ := ih S e hS hE hN hC (hC nm _ hg e (by simp [deps])) (by omega)
        exact ⟨(r.1, r.2.map Real.exp), by simp only [hr, bind_ok]; rfl, hNr⟩
end Expr

namespace ExprCtx

/-- An evaluated list of expressions refers only to names that come before. -/
theorem evalLoop_prefix (es : Dict Expr) (d d' : Dict ℝ) (hn : (d.keys ++ es.keys).Nodup)
    (h : evalLoop es d = .ok d') (pre : Dict Expr) (nm : String) (e : Expr) (post : Dict Expr)
    (hes : es = pre ++ (nm, e) :: post) : ∀ k ∈ e.deps nm, k ∈ d.keys ++ Dict.keys pre := by
  subst hes
  rw [evalLoop_append] at h
  obtain ⟨d1, h1, h⟩ := bind_eq_ok.1 h
  simp only [evalLoop] at h
  obtain ⟨v, hv, h⟩ := bind_eq_ok.1 h
  have hn' : (d.keys ++ Dict.keys pre).Nodup := by
    rw [Dict.keys_append, ← List.append_assoc] at hn
    exact (List.nodup_append.1 hn).1
  obtain ⟨k1, _⟩ := evalLoop_keys pre d d1 hn' h1
  intro k hk
  rw [← k1]
  exact ((Expr.value_ok_iff _ _ _ _).1 hv).1 k hk

theorem tval_congr {env env' : String → ℝ} {nm : String} {e : Expr}
    (h : ∀ k ∈ e.deps nm, env k = env' k) :
    e.tval env nm = e.tval env' nm ∧ (e.denOk env ↔ e.denOk env') := by
  cases e with
  | number w => simp [Expr.tval, Expr.denOk]
  | single => simp [Expr.tval, Expr.denOk, h nm (by simp [Expr.deps])]
  | linear nom co =>
    simp only [Expr.tval, Expr.denOk, and_true]
    congr 2
    apply List.map_congr_left
    intro kc hkc
    rw [h kc.1 (List.mem_map.2 ⟨kc, hkc, rfl⟩)]
  | prodRatio pre num den =>
    have e1 : num.map env = num.map env' :=
      List.map_congr_left (fun k hk => h k (by simp [Expr.deps, hk]))
    have e2 : den.map env = den.map env' :=
      List.map_congr_left (fun k hk => h k (by simp [Expr.deps, hk]))
    simp [Expr.tval, Expr.denOk, e1, e2]
  | exponential e => simp [Expr.tval, Expr.denOk, h e (by simp [Expr.deps])]

/-- Evaluation succeeds, with the expected values, when the equations hold in order. -/
theorem evalLoop_ok {env : String → ℝ} (es : Dict Expr) (d : Dict ℝ)
    (hn : (d.keys ++ es.keys).Nodup) (hd : ∀ k ∈ d.keys, d.get? k = some (env k))
    (he : ∀ pre nm e post, es = pre ++ (nm, e) :: post →
      (∀ k ∈ e.deps nm, k ∈ d.keys ++ Dict.keys pre) ∧ e.denOk env ∧ env nm = e.tval env nm) :
    ∃ d', evalLoop es d = .ok d' ∧ d'.keys = d.keys ++ es.keys ∧
      ∀ k ∈ d'.keys, d'.get? k = some (env k) := by
  induction es generalizing d with
  | nil => exact ⟨d, rfl, by simp [Dict.keys], hd⟩
  | cons a es ih =>
    obtain ⟨nm, e⟩ := a
    obtain ⟨h1, h2, h3⟩ := he [] nm e es rfl
    have h1 : ∀ k ∈ e.deps nm, k ∈ d.keys := by simpa [Dict.keys] using h1
    have hlook : ∀ k ∈ e.deps nm, Expr.look d k = env k := by
      intro k hk; simp [Expr.look, hd k (h1 k hk)]
    have hc := tval_congr hlook
    have hv : e.value d nm = .ok (env nm) := by
      rw [Expr.value_ok_iff]
      exact ⟨h1, hc.2.2 h2, by rw [h3, hc.1]⟩
    have hk : Dict.keys ((nm, e) :: es) = nm :: Dict.keys es := rfl
    rw [hk] at hn
    have hnm : nm ∉ d.keys := fun hm => (List.nodup_append.1 hn).2.2 nm hm nm (by simp) rfl
    have hks : (d.set nm (env nm)).keys = d.keys ++ [nm] := by rw [Dict.keys_set, if_neg hnm]
    have hn' : ((d.set nm (env nm)).keys ++ Dict.keys es).Nodup := by rw [hks]; simpa using hn
    obtain ⟨d', g1, g2, g3⟩ := ih (d.set nm (env nm)) hn' (by
      intro k hk
      rw [Dict.get?_set]
      split_ifs with hkn
      · rw [hkn]
      · rw [hks] at hk
        exact hd k ((List.mem_append.1 hk).resolve_right (by simpa using fun h => hkn h.symm))) (by
      intro pre nm' e' post hes
      obtain ⟨q1, q2⟩ := he ((nm, e) :: pre) nm' e' post (by rw [hes]; rfl)
      refine ⟨fun k hk => ?_, q2⟩
      rw [hks]
      have := q1 k hk
      simpa [Dict.keys, or_assoc] using this)
    refine ⟨d', ?_, by rw [g2, hks, hk]; simp, g3⟩
    simp only [evalLoop, hv, bind_ok, g1]
end ExprCtx

namespace PoiModel
open Expr

theorem replaceAll_spec {env : String → ℝ} {params : List String} {name : String}
    {value : Option ℝ} {rank : String → Nat} (hv : ∀ v, value = some v → env name = v) (fuel : Nat)
    (l : List String) (S : Dict Expr) (out : Dict Expr × Dict ℝ) (hS : Ranked rank S)
    (hE : Solves env S) (h : replaceAll fuel params name value S l = .ok out) :
    Step env name S out.1 ∧
    (∀ nm ∈ l, nm ∈ Dict.keys out.2 ∨
      ∀ e', out.1.get? nm = some e' → ∀ k ∈ e'.deps nm, ¬ Triv name S k) ∧
    (∀ nm ∈ Dict.keys out.2, nm ∈ l ∧ Triv name S nm) ∧
    (∀ nm ∈ l, Triv name S nm → nm ∈ Dict.keys out.2) ∧
    (∀ p ∈ out.2, p.2 = env p.1) := by
  induction l generalizing S out with
  | nil =>
    simp only [replaceAll, Except.ok.injEq] at h
    subst h
    exact ⟨Step.refl hE, by simp, by simp [Dict.keys], by simp, by simp⟩
  | cons nm l ih =>
    simp only [replaceAll] at h
    obtain ⟨r, hr, h⟩ := bind_eq_ok.1 h
    obtain ⟨o, ho, h⟩ := bind_eq_ok.1 h
    have C := replace_spec hv fuel S nm r hS hE hr
    obtain ⟨i1, i2, i3, i4, i5⟩ := ih r.1 o (hS.step C.step) C.step.solves ho
    have i2' : ∀ j ∈ l, j ∈ Dict.keys o.2 ∨
      ∀ e', o.1.get? j = some e' → ∀ k ∈ e'.deps j, ¬ Triv name S k := by
      intro j hj
      rcases i2 j hj with h | h
      · exact Or.inl h
      · exact Or.inr (fun e' he' k hk t => h e' he' k hk ((C.step.triv k).1 t))
    cases hr2 : r.2 with
    | some v =>
      rw [hr2] at h
      simp only [pure_ok, Except.ok.injEq] at h
      subst h
      have hkeys : ∀ j, j ∈ Dict.keys ((nm, v) :: o.2) ↔ j = nm ∨ j ∈ Dict.keys o.2 := by
        intro j; simp [Dict.keys]
      obtain ⟨c1, c2⟩ := C.some v hr2
      refine ⟨C.step.trans i1, ?_, ?_, ?_, ?_⟩
      · intro j hj
        rcases List.mem_cons.1 hj with rfl | hj
        · exact Or.inl ((hkeys _).2 (Or.inl rfl))
        · exact (i2' j hj).imp (fun h => (hkeys _).2 (Or.inr h)) id
      · intro j hj
        rcases (hkeys j).1 hj with rfl | hj
        · exact ⟨by simp, c2⟩
        · exact ⟨by simp [(i3 j hj).1], (C.step.triv j).2 (i3 j hj).2⟩
      · intro j hj t
        rcases List.mem_cons.1 hj with rfl | hj
        · exact (hkeys _).2 (Or.inl rfl)
        · exact (hkeys _).2 (Or.inr (i4 j hj ((C.step.triv j).1 t)))
      · intro p hp
        rcases List.mem_cons.1 hp with rfl | hp
        · exact c1.symm
        · exact i5 p hp
    | none =>
      rw [hr2] at h
      simp only [pure_ok, Except.ok.injEq] at h
      subst h
      obtain ⟨c1, c2⟩ := C.none hr2
      refine ⟨C.step.trans i1, ?_, ?_, ?_, i5⟩
      · intro j hj
        rcases List.mem_cons.1 hj with rfl | hj
        · right
          intro e' he' k hk
          obtain ⟨e, he, hd⟩ := i1.deps j e' he'
          exact c2 e he k (hd k hk)
        · exact i2' j hj
      · intro j hj
        exact ⟨by simp [(i3 j hj).1], (C.step.triv j).2 (i3 j hj).2⟩
      · intro j hj t
        rcases List.mem_cons.1 hj with rfl | hj
        · exact absurd t c1
        · exact i4 j hj ((C.step.triv j).1 t)

theorem removeFromNorms_ok {m : PoiModel} {name : String} {values : Dict ℝ} {u : Unit}
    (h : m.removeFromNorms name values = .ok u) : name ∉ m.norms := by
  intro hm
  simp only [removeFromNorms, if_pos hm] at h
  split at h <;> cases h

/-- What is known about an intermediate state of `remove_pois`. -/
structure Inv (env : String → ℝ) (m0 m : PoiModel) (gone : List String) (T : List String) : Prop where
  nps : m.nps = m0.nps
  norms : m.norms = m0.norms
  keys : m.exprs.keys = m0.exprs.keys
  pois : ∀ k, k ∈ m.pois ↔ k ∈ m0.pois ∧ k ∉ gone
  filt : m.pois = m0.pois.filter (fun k => k ∉ gone)
  solves : Solves env m.exprs
  deps : ∀ nm e', m.exprs.get? nm = some e' →
    ∃ e, m0.exprs.get? nm = some e ∧ ∀ k ∈ e'.deps nm, k ∈ e.deps nm
  clean : ∀ nm e', m.exprs.get? nm = some e' → nm ∉ T → ∀ k ∈ e'.deps nm, k ∉ gone ∧ k ∉ T
  normsFree : ∀ k ∈ gone, k ∉ m0.norms

theorem removePoi_inv {env : String → ℝ} {m0 m : PoiModel} {gone T : List String}
    {rank : String → Nat} (I : Inv env m0 m gone T) (hR : Ranked rank m.exprs) (fuel : Nat)
    (values : Dict ℝ) (name : String) (hval : ∀ v, values.get? name = some v → env name = v)
    (hnd : m.pois.Nodup) (hne : name ∉ m.exprs.keys)
    (r : PoiModel × Dict ℝ) (h : removePoi fuel values m name = .ok r) :
    Inv env m0 r.1 (name :: gone) (T ++ Dict.keys r.2) ∧ Ranked rank r.1.exprs ∧
      r.1.pois = m.pois.erase name ∧ (∀ p ∈ r.2, p.2 = env p.1) := by
  simp only [removePoi, if_pos hne] at h
  obtain ⟨u, hu, h⟩ := bind_eq_ok.1 h
  obtain ⟨out, hout, h⟩ := bind_eq_ok.1 h
  by_cases hp : name ∉ m.pois
  · rw [if_pos hp] at h; simp at h
  rw [if_neg hp] at h
  simp only [pure_ok, Except.ok.injEq] at h
  subst h
  obtain ⟨s1, s2, s3, s4, s5⟩ := replaceAll_spec hval fuel _ _ out hR I.solves hout
  have hk : out.1.keys = m.exprs.keys := s1.keys
  refine ⟨⟨I.nps, I.norms, hk.trans I.keys, ?_, ?_, s1.solves, ?_, ?_, ?_⟩, hR.step s1, rfl, s5⟩
  · intro k
    simp only
    rw [hnd.mem_erase_iff, I.pois]
    simp only [List.mem_cons]
    tauto
  · simp only
    rw [hnd.erase_eq_filter, I.filt, List.filter_filter]
    apply List.filter_congr
    intro k _
    simp only [List.mem_cons, not_or, Bool.decide_and, bne, Bool.and_comm]
    congr 1
    by_cases hk : k = name <;> simp [hk]
  · intro nm e' he'
    obtain ⟨e, he, hd⟩ := s1.deps nm e' he'
    obtain ⟨e0, he0, hd0⟩ := I.deps nm e he
    exact ⟨e0, he0, fun k hk => hd0 k (hd k hk)⟩
  · intro nm e' he' hT k hk
    simp only [List.mem_append, not_or] at hT
    obtain ⟨e, he, hd⟩ := s1.deps nm e' he'
    obtain ⟨g1, g2⟩ := I.clean nm e he hT.1 k (hd k hk)
    have hnm : nm ∈ m.exprs.keys := (Dict.mem_keys_iff _ _).2 ⟨e, he⟩
    have ht := (s2 nm hnm).resolve_left hT.2 e' he' k hk
    constructor
    · simp only [List.mem_cons, not_or]
      refine ⟨?_, g1⟩
      rintro rfl
      exact ht (.par ((Dict.get?_eq_none_iff _ _).2 hne))
    · simp only [List.mem_append, not_or]
      exact ⟨g2, fun hk2 => ht (s3 k hk2).2⟩
  · intro k hk
    rcases List.mem_cons.1 hk with rfl | hk
    · rw [← I.norms]; exact removeFromNorms_ok hu
    · exact I.normsFree k hk

theorem removePoiLoop_inv {env : String → ℝ} {m0 : PoiModel} {rank : String → Nat} (fuel : Nat)
    (values : Dict ℝ) (names : List String) (hval : ∀ k ∈ names, ∀ v, values.get? k = some v → env k = v)
    (hne : ∀ k ∈ m0.pois, k ∉ m0.exprs.keys) (hnames : ∀ k ∈ names, k ∈ m0.pois)
    (m : PoiModel) (gone T : List String) (I : Inv env m0 m gone T) (hR : Ranked rank m.exprs)
    (hnd : m.pois.Nodup) (r : PoiModel × Dict ℝ) (h : removePoiLoop fuel values m names = .ok r) :
    ∃ gone', (∀ k, k ∈ gone' ↔ k ∈ gone ∨ k ∈ names) ∧ Inv env m0 r.1 gone' (T ++ Dict.keys r.2) ∧
      Ranked rank r.1.exprs ∧ r.1.pois.Nodup ∧ (∀ p ∈ r.2, p.2 = env p.1) := by
  induction names generalizing m gone T r with
  | nil =>
    simp only [removePoiLoop, Except.ok.injEq] at h
    subst h
    exact ⟨gone, by simp, by simpa [Dict.keys] using I, hR, hnd, by simp⟩
  | cons nm names ih =>
    simp only [removePoiLoop] at h
    obtain ⟨r1, hr1, h⟩ := bind_eq_ok.1 h
    obtain ⟨o, ho, h⟩ := bind_eq_ok.1 h
    simp only [pure_ok, Except.ok.injEq] at h
    subst h
    obtain ⟨I1, R1, p1, v1⟩ := removePoi_inv I hR fuel values nm (hval nm (by simp)) hnd
      (by rw [I.keys]; exact hne nm (hnames nm (by simp))) r1 hr1
    obtain ⟨gone', g1, g2, g3, g4, g5⟩ := ih (fun k hk => hval k (by simp [hk])) (fun k hk => hnames k (by simp [hk])) r1.1 (nm :: gone)
      (T ++ Dict.keys r1.2) I1 R1 (by rw [p1]; exact hnd.erase _) o ho
    refine ⟨gone', ?_, ?_, g3, g4, ?_⟩
    · intro k; rw [g1]; simp only [List.mem_cons]; tauto
    · simp only; rw [Dict.keys_append, ← List.append_assoc]; exact g2
    · intro p hp
      rcases List.mem_append.1 hp with h | h
      · exact v1 p h
      · exact g5 p h

theorem removeExprs_ok (values : Dict ℝ) (l : List String) (m m' : PoiModel)
    (h : removeExprs values m l = .ok m') :
    m' = { m with exprs := m.exprs.filter (fun p => p.1 ∉ l) } ∧ (∀ k ∈ l, k ∉ m.norms) ∧ l.Nodup := by
  induction l generalizing m with
  | nil =>
    simp only [removeExprs, Except.ok.injEq] at h
    subst h
    simp
  | cons nm l ih =>
    simp only [removeExprs] at h
    by_cases hp : nm ∉ m.exprs.keys
    · rw [if_pos hp] at h; simp at h
    rw [if_neg hp] at h
    obtain ⟨u, hu, h⟩ := bind_eq_ok.1 h
    obtain ⟨h1, h2, h3⟩ := ih _ h
    have hnl : nm ∉ l := by
      intro hm
      clear h2 h1 ih
      have key : ∀ (l : List String) (m m' : PoiModel), removeExprs values m l = .ok m' →
          ∀ k ∈ l, k ∈ m.exprs.keys := by
        intro l
        induction l with
        | nil => intro _ _ _ k hk; cases hk
        | cons a l ih =>
          intro m m' h k hk
          simp only [removeExprs] at h
          by_cases hp : a ∉ m.exprs.keys
          · rw [if_pos hp] at h; simp at h
          rw [if_neg hp] at h
          obtain ⟨u, hu, h⟩ := bind_eq_ok.1 h
          rcases List.mem_cons.1 hk with rfl | hk
          · exact not_not.1 hp
          · have := ih _ _ h k hk
            simp only [Dict.keys, List.mem_map, List.mem_filter] at this
            obtain ⟨q, hq, rfl⟩ := this
            exact List.mem_map.2 ⟨q, hq.1, rfl⟩
      have := key l _ _ h nm hm
      simp [Dict.keys] at this
    refine ⟨?_, ?_, List.nodup_cons.2 ⟨hnl, h3⟩⟩
    · rw [h1]
      simp only [List.filter_filter, List.mem_cons, not_or]
      congr 1
      apply List.filter_congr
      intro p _
      simp [Bool.and_comm]
    · intro k hk
      rcases List.mem_cons.1 hk with rfl | hk
      · exact removeFromNorms_ok hu
      · exact h2 k hk
end PoiModel
end Verif
