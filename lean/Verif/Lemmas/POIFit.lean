import Verif.Lemmas.POIMin
import Verif.Spec.POIMin
/-! Helper lemmas about the fits over POIs. -/
namespace Verif
open Spec
variable {K : Type} [Field K] [LinearOrder K]

theorem allows_iff (b : ParBound K) (v : K) : b.testValue v = true ↔ Allows b v := testValue_iff b v

theorem effBound_eq (pois : List (PoiRange K)) (bounds : Option (List (ParBound K)))
    (hypo : Option (Dict K)) (fix : Bool) (d : Dict (ParBound K))
    (h : buildBounds pois bounds hypo fix = .ok d) (n : String) :
    d.get? n = effBound pois (bounds.getD []) (if fix then hypo.getD [] else []) n := by
  rw [buildBounds_get? pois bounds hypo fix d h n]
  unfold effBound lastFor lastBound
  cases fix with
  | false =>
    simp only [Bool.false_eq_true, if_false, List.filter_nil, List.getLast?_nil, Option.map_none,
      Option.none_or]
    cases ((bounds.getD []).filter fun b => decide (b.par = n)).getLast? <;> rfl
  | true =>
    simp only [if_true]
    cases ((hypo.getD []).filter fun b => decide (b.1 = n)).getLast? with
    | some e => rfl
    | none => cases ((bounds.getD []).filter fun b => decide (b.par = n)).getLast? <;> rfl

theorem buildBounds_keys (pois : List (PoiRange K)) (bounds : Option (List (ParBound K)))
    (hypo : Option (Dict K)) (fix : Bool) (d : Dict (ParBound K))
    (h : buildBounds pois bounds hypo fix = .ok d) (hn : (pois.map (·.par)).Nodup) :
    ∃ ex, d.keys = pois.map (·.par) ++ ex := by
  have e0 : (Dict.setAll [] (pois.map fun b => (b.par, b))).keys = pois.map (·.par) := by
    rw [Dict.keys_setAll_nil _ (by simpa [List.map_map, Function.comp_def] using hn)]
    simp [List.map_map, Function.comp_def]
  have e1 : ∃ ex, (argBounds pois bounds).keys = pois.map (·.par) ++ ex := by
    cases bounds with
    | none => exact ⟨[], by simpa [argBounds] using e0⟩
    | some bs =>
      obtain ⟨ex, h⟩ := Dict.keys_setAll (bs.map fun b => (b.par, b))
        (Dict.setAll [] (pois.map fun b => (b.par, b)))
      exact ⟨ex, by rw [← e0]; exact h⟩
  cases fix with
  | false =>
    have := Except.ok.inj (ε := PyErr) (by simpa [buildBounds] using h)
    rw [← this]; exact e1
  | true =>
    cases hypo with
    | none => simp [buildBounds] at h
    | some hy =>
      have := Except.ok.inj (ε := PyErr) (by simpa [buildBounds] using h)
      obtain ⟨ex, h1⟩ := e1
      obtain ⟨ex', h2⟩ := Dict.keys_setAll (hy.map fun kv =>
        (kv.1, ({ par := kv.1, min := some kv.2, max := some kv.2 } : ParBound K)))
        (argBounds pois bounds)
      exact ⟨ex ++ ex', by rw [← this, h2, h1, List.append_assoc]⟩

theorem BInv.lastBound_values {d : Dict (ParBound K)} (h : BInv d) (n : String) :
    lastBound d.values n = d.get? n := by
  obtain ⟨h1, h2⟩ := h
  induction d with
  | nil => simp [lastBound, Dict.values]
  | cons a d ih =>
    obtain ⟨k, b⟩ := a
    simp only [Dict.keys, List.map_cons, List.nodup_cons] at h1
    have hb : b.par = k := h2 (k, b) (by simp)
    have ih' := ih h1.2 (fun e he => h2 e (by simp [he]))
    rw [Dict.get?_cons]
    by_cases hk : k = n
    · rw [if_pos hk]
      have hnil : (Dict.values d).filter (fun b => decide (b.par = n)) = [] := by
        rw [List.filter_eq_nil_iff]
        intro b' hb'
        obtain ⟨e, he, rfl⟩ := List.mem_map.1 hb'
        simp only [decide_eq_true_eq]
        intro hc
        rw [h2 e (by simp [he])] at hc
        exact h1.1 (by rw [hk, ← hc]; exact List.mem_map_of_mem he)
      have : Dict.values ((k, b) :: d) = b :: Dict.values d := rfl
      unfold lastBound
      rw [this, List.filter_cons_of_pos (by simp [hb, hk]), hnil]
      rfl
    · rw [if_neg hk, ← ih']
      have : Dict.values ((k, b) :: d) = b :: Dict.values d := rfl
      have hf : (Dict.values ((k, b) :: d)).filter (fun b => decide (b.par = n))
          = (Dict.values d).filter (fun b => decide (b.par = n)) := by simp [this, hb, hk]
      simp only [lastBound, hf]

theorem BInv.get?_getElem {d : Dict (ParBound K)} (h : BInv d) (i : Nat) (n : String)
    (hi : d.keys[i]? = some n) : d.get? n = d.values[i]? := by
  obtain ⟨h1, _⟩ := h
  obtain ⟨hl, e⟩ := List.getElem?_eq_some_iff.1 hi
  simp only [Dict.keys, List.length_map] at hl
  have hv : d.values[i]? = some d[i].2 := by simp [Dict.values, hl]
  rw [hv, Dict.get?_eq_some_iff d h1]
  have : n = d[i].1 := by rw [← e]; simp [Dict.keys]
  rw [this]
  exact List.getElem_mem hl

/-- Reading a POI of a shaped point. -/
theorem get_poi (m : ParModel K) (p : Pars K) (n : String) (hn : n ∈ m.pois) (v : K) :
    p.get m n = .ok v ↔ p.pois[m.pois.idxOf n]? = some v := by
  unfold Pars.get
  rw [if_pos hn]
  cases p.pois[m.pois.idxOf n]? <;> simp

theorem map_fst_zip_sub {α β : Type} (l : List α) (x : List β) :
    ((l.zip x).map Prod.fst).Sublist l := by
  induction l generalizing x with
  | nil => simp
  | cons a l ih =>
    cases x with
    | nil => simp
    | cons b x => simpa using ih x

/-- The point at which the objective is computed: free POIs take the coordinates given by the
optimiser (in the box of their bounds), all others stay at the start values. -/
theorem evalPoint (m : ParModel K) (d : Dict (ParBound K)) (hd : BInv d) (ex : List String)
    (hk : d.keys = m.pois ++ ex) (hn : m.pois.Nodup) (fr : List (Nat × ParBound K))
    (hfr : freeBounds d = .ok fr) (x : List K) (p0 p : Pars K)
    (hs : ShapedL m p0) (hu : updateHypo ((fr.map Prod.fst).zip x) p0 = .ok p) :
    ShapedL m p ∧ p.nps = p0.nps ∧ ∀ n ∈ m.pois, ∃ b w, d.get? n = some b ∧ p.get m n = .ok w ∧
      (b.isFree = .ok false → p0.get m n = .ok w) ∧
      (b.isFree = .ok true → List.Forall₂ (fun (b : Nat × ParBound K) v => b.2.testValue v = true) fr x →
        b.testValue w = true) := by
  obtain ⟨f1, f2, f3⟩ := freeBounds_inv d fr hfr
  have hnd : (((fr.map Prod.fst).zip x).map Prod.fst).Nodup := by
    exact (map_fst_zip_sub _ _).nodup f1
  obtain ⟨u1, u2, u3, u4⟩ := updateHypo_spec _ p0 p hnd hu
  have hsp : ShapedL m p := ⟨u2.trans hs.1, by rw [u1]; exact hs.2⟩
  refine ⟨hsp, u1, fun n hmem => ?_⟩
  have hi : m.pois.idxOf n < m.pois.length := List.idxOf_lt_length_of_mem hmem
  have hki : d.keys[m.pois.idxOf n]? = some n := by
    rw [hk, List.getElem?_append_left hi, List.getElem?_eq_getElem hi, List.getElem_idxOf]
  have hget := hd.get?_getElem _ _ hki
  have hlen : m.pois.idxOf n < d.values.length := by
    have := (List.getElem?_eq_some_iff.1 hki).1
    simpa [Dict.keys, Dict.values] using this
  have hb : d.values[m.pois.idxOf n]? = some (d.values[m.pois.idxOf n]) :=
    List.getElem?_eq_getElem hlen
  obtain ⟨w, hw⟩ := Pars.get_known m p n hsp.1 hsp.2 (Or.inl hmem)
  refine ⟨d.values[m.pois.idxOf n], w, hget.trans hb, hw, ?_, ?_⟩
  · intro hf
    have hnot : m.pois.idxOf n ∉ ((fr.map Prod.fst).zip x).map Prod.fst := by
      intro hc
      obtain ⟨⟨j, b⟩, hjb, hj⟩ := List.mem_map.1 ((map_fst_zip_sub _ _).subset hc)
      simp only at hj
      subst hj
      obtain ⟨g1, g2⟩ := (f2 _ b).1 hjb
      rw [hb] at g1
      have := Option.some.inj g1
      rw [this, g2] at hf
      cases hf
    rw [get_poi m p0 n hmem, ← u4 _ hnot, ← get_poi m p n hmem, hw]
  · intro hf hbox
    have hin : (m.pois.idxOf n, d.values[m.pois.idxOf n]) ∈ fr := (f2 _ _).2 ⟨hb, hf⟩
    obtain ⟨j, hj, e⟩ := List.getElem_of_mem hin
    have hjx : j < x.length := hbox.length_eq ▸ hj
    have ht := (List.forall₂_iff_get.1 hbox).2 j hj hjx
    simp only [List.get_eq_getElem, e] at ht
    have hm : (m.pois.idxOf n, x[j]) ∈ (fr.map Prod.fst).zip x := by
      rw [List.mem_iff_getElem]
      refine ⟨j, by simp [hj, hjx], ?_⟩
      simp [e]
    have h1 := u3 _ hm
    simp only at h1
    rw [get_poi m p n hmem, h1] at hw
    rw [← Option.some.inj hw]
    exact ht

/-- Inversion of `minimize`. -/
theorem minimize_inv (env : FitEnv K) (m : ParModel K) (st st' : MinSt K) (run : OptRun K)
    (r : MinRet K) (h : minimize env m st run = .ok (st', r)) :
    ∃ fr, freeBounds st.bounds = .ok fr ∧
      ((fr = [] ∧ st.method ≠ "" ∧ ∃ v q, profileAt env st.initPois = .ok (v, q) ∧
          st'.minNll = some v ∧ st'.minPars = some q ∧ r = .nll v ∧
          st' = { st with method := "", minNll := some v, minPars := some q, minPois := [] }) ∨
       (fr ≠ [] ∧ ∃ es, run.evals.mapM (evalAt env st.initPois fr) = .ok es ∧
          st'.minPars = (es.getLast?.map Prod.snd).or st.minPars ∧
          (run.success = true → st'.minNll = some run.fn ∧ r = .nll run.fn ∧ st'.minPois = run.x) ∧
          (run.success = false → st'.minNll = (es.getLast?.map Prod.fst).or st.minNll ∧
            r = .nonePair))) := by
  unfold minimize at h
  obtain ⟨fr, hfr, h⟩ := bind_eq_ok.1 h
  obtain ⟨x0, _, h⟩ := bind_eq_ok.1 h
  refine ⟨fr, hfr, ?_⟩
  by_cases hc : fr.length = 0 ∧ st.method ≠ ""
  · rw [if_pos hc] at h
    obtain ⟨⟨v, q⟩, hp, h⟩ := bind_eq_ok.1 h
    have := Except.ok.inj h
    simp only [Prod.mk.injEq] at this
    obtain ⟨rfl, rfl⟩ := this
    exact Or.inl ⟨List.length_eq_zero_iff.1 hc.1, hc.2, v, q, hp, rfl, rfl, rfl, rfl⟩
  · rw [if_neg hc] at h
    simp only [] at h
    right
    set method := if fr.length > 1 ∧ st.method = "scalar" then "L-BFGS-B" else st.method with hmeth
    by_cases hm : method ∈ ["scalar", "CG", "L-BFGS-B"]
    · rw [if_pos hm] at h
      obtain ⟨es, hes, h⟩ := bind_eq_ok.1 h
      refine ⟨?_, es, hes, ?_⟩
      · rintro rfl
        have hme : st.method = "" := by
          by_contra hne
          exact hc ⟨rfl, hne⟩
        rw [hmeth, hme] at hm
        simp at hm
      · cases hsu : run.success with
        | true =>
          rw [hsu] at h
          simp only [if_true] at h
          have := Except.ok.inj h
          simp only [Prod.mk.injEq] at this
          obtain ⟨rfl, rfl⟩ := this
          exact ⟨rfl, fun _ => ⟨rfl, rfl, rfl⟩, (fun hh => by cases hh)⟩
        | false =>
          rw [hsu] at h
          simp only [Bool.false_eq_true, if_false] at h
          have := Except.ok.inj h
          simp only [Prod.mk.injEq] at this
          obtain ⟨rfl, rfl⟩ := this
          exact ⟨rfl, (fun hh => by cases hh), fun _ => ⟨rfl, rfl⟩⟩
    · rw [if_neg hm] at h; cases h

theorem evalAt_inv (env : FitEnv K) (p0 : Pars K) (fr : List (Nat × ParBound K)) (x : List K)
    (v : K) (q : Pars K) (h : evalAt env p0 fr x = .ok (v, q)) :
    ∃ p, updateHypo ((fr.map Prod.fst).zip x) p0 = .ok p ∧ env.profile p = .ok q ∧
      env.nll q = .ok v := by
  unfold evalAt at h
  obtain ⟨p, hp, h⟩ := bind_eq_ok.1 h
  unfold profileAt at h
  obtain ⟨q', hq, h⟩ := bind_eq_ok.1 h
  obtain ⟨v', hv, h⟩ := bind_eq_ok.1 h
  have := Except.ok.inj h
  simp only [Prod.mk.injEq] at this
  obtain ⟨rfl, rfl⟩ := this
  exact ⟨p, hp, hq, hv⟩

theorem profileAt_inv (env : FitEnv K) (p q : Pars K) (v : K)
    (h : profileAt env p = .ok (v, q)) : env.profile p = .ok q ∧ env.nll q = .ok v := by
  unfold profileAt at h
  obtain ⟨q', hq, h⟩ := bind_eq_ok.1 h
  obtain ⟨v', hv, h⟩ := bind_eq_ok.1 h
  have := Except.ok.inj h
  simp only [Prod.mk.injEq] at this
  obtain ⟨rfl, rfl⟩ := this
  exact ⟨hq, hv⟩

/-- With no free parameter, the update is empty. -/
theorem setPois_facts (m : ParModel K) (pois : List (PoiRange K)) (init : Pars K)
    (bounds : Option (List (ParBound K))) (hypo : Option (Dict K)) (fix : Bool)
    (p : Pars K) (d : Dict (ParBound K)) (hs : ShapedL m init)
    (h : setPois m pois init bounds hypo fix = .ok (p, d)) :
    BInv d ∧ ShapedL m p ∧
    (∀ n b, d.get? n = some b → ∃ v w, 
      requested m (hypo.getD []) init n = .ok v ∧
        clampVal b v = .ok w ∧ p.get m n = .ok w) ∧
    ∀ n, d.get? n = none → p.get m n =
      requested m (hypo.getD []) init n := by
  obtain ⟨p1, h1, h2, h3⟩ := setPois_inv m pois init bounds hypo fix p d h
  have hinv := buildBounds_inv _ _ _ _ _ h2
  obtain ⟨q1, e1, s1, g1⟩ := setHypo_spec m _ init hs (setHypo_known m _ _ _ h1)
  have : q1 = p1 := Except.ok.inj (e1 ▸ h1)
  subst this
  have g1' : ∀ n, q1.get m n =
      requested m (hypo.getD []) init n := by
    intro n
    rw [g1 n]
    unfold requested lastFor
    cases ((hypo.getD []).filter (fun e => decide (e.1 = n))).getLast? <;> rfl
  obtain ⟨s2, c1, c2⟩ := clampInit_spec m d.values q1 p s1 (by rw [hinv.map_par]; exact hinv.1) h3
  refine ⟨hinv, s2, ?_, ?_⟩
  · intro n b hb
    have hmem := (Dict.get?_eq_some_iff d hinv.1 n b).1 hb
    have hpar : b.par = n := hinv.2 _ hmem
    obtain ⟨v, w, a1, a2, a3⟩ := c1 b (List.mem_map.2 ⟨_, hmem, rfl⟩)
    rw [hpar] at a1 a3
    exact ⟨v, w, by rw [← g1' n]; exact a1, a2, a3⟩
  · intro n hb
    rw [c2 n (by rw [hinv.map_par]; exact (Dict.get?_eq_none_iff d n).1 hb), g1' n]

/-- Setting POIs does not touch NPs. -/
theorem set_poi_nps (m : ParModel K) (p q : Pars K) (n : String) (v : K) (hn : n ∈ m.pois)
    (h : p.set m n v false = .ok q) : q.nps = p.nps := by
  unfold Pars.set at h
  rw [if_pos hn] at h
  by_cases hi : m.pois.idxOf n < p.pois.length
  · rw [if_pos hi] at h
    have := Except.ok.inj h; subst this; rfl
  · rw [if_neg hi] at h; cases h

theorem setHypo_nps (m : ParModel K) (h : Dict K) (p q : Pars K)
    (hk : ∀ e ∈ h, e.1 ∈ m.pois) (hq : setHypo m h p = .ok q) : q.nps = p.nps := by
  induction h generalizing p with
  | nil => exact congrArg _ (Except.ok.inj hq).symm
  | cons a h ih =>
    rw [setHypo] at hq
    obtain ⟨p1, e1, hq⟩ := bind_eq_ok.1 hq
    rw [ih p1 (fun e he => hk e (by simp [he])) hq, set_poi_nps m p p1 a.1 a.2 (hk a (by simp)) e1]

theorem clampInit_nps (m : ParModel K) (bs : List (ParBound K)) (p q : Pars K)
    (hk : ∀ b ∈ bs, b.par ∈ m.pois) (h : clampInit m bs p = .ok q) : q.nps = p.nps := by
  induction bs generalizing p with
  | nil => exact congrArg _ (Except.ok.inj h).symm
  | cons b bs ih =>
    rw [clampInit] at h
    obtain ⟨v, hv, h⟩ := bind_eq_ok.1 h
    have hk' : ∀ b ∈ bs, b.par ∈ m.pois := fun b hb => hk b (by simp [hb])
    by_cases ht : b.testValue v = true
    · rw [if_pos ht] at h
      exact ih p hk' h
    · rw [if_neg ht] at h
      obtain ⟨c, hc, h⟩ := bind_eq_ok.1 h
      obtain ⟨p', hp', h⟩ := bind_eq_ok.1 h
      rw [ih p' hk' h, set_poi_nps m p p' b.par c (hk b (by simp)) hp']

theorem lastFor_nodup {V : Type} (l : List (String × V)) (h : (l.map Prod.fst).Nodup)
    (e : String × V) (he : e ∈ l) : lastFor l e.1 = some e.2 := by
  unfold lastFor
  have : l.filter (fun x => decide (x.1 = e.1)) = [e] := by
    induction l with
    | nil => simp at he
    | cons a l ih =>
      rw [List.map_cons, List.nodup_cons] at h
      rcases List.mem_cons.1 he with rfl | he
      · rw [List.filter_cons_of_pos (by simp), List.cons.injEq]
        refine ⟨rfl, List.filter_eq_nil_iff.2 fun x hx => ?_⟩
        simp only [decide_eq_true_eq]
        intro hc
        exact h.1 (hc ▸ List.mem_map_of_mem hx)
      · rw [List.filter_cons_of_neg, ih h.2 he]
        simp only [decide_eq_true_eq]
        intro hc
        exact h.1 (hc ▸ List.mem_map_of_mem he)
  rw [this]; rfl

theorem tmu_inv (env : FitEnv K) (m : ParModel K) (pois : List (PoiRange K)) (method : String)
    (bounds : Option (List (ParBound K))) (init : Pars K) (hypo : Dict K) (runH runF : OptRun K)
    (out : TmuOut K) (h : tmu env m pois method bounds init hypo runH runF = .ok out) :
    ∃ pf bf ph bh sh rh sf rf, setPois m pois init bounds (some hypo) false = .ok (pf, bf) ∧
      setPois m pois init (some bf.values) (some hypo) true = .ok (ph, bh) ∧
      minimize env m { method := method, initPois := ph, bounds := bh } runH = .ok (sh, rh) ∧
      minimize env m { method := method, initPois := pf, bounds := bf } runF = .ok (sf, rf) ∧
      sh.minNll = some out.hypoNll ∧ sf.minNll = some out.freeNll ∧
      sh.minPars = some out.hypoPars ∧ sf.minPars = some out.freePars ∧
      out.tmu = tmuValue out.hypoNll out.freeNll := by
  unfold tmu at h
  obtain ⟨⟨pf, bf⟩, h1, h⟩ := bind_eq_ok.1 h
  obtain ⟨⟨ph, bh⟩, h2, h⟩ := bind_eq_ok.1 h
  obtain ⟨⟨sh, rh⟩, h3, h⟩ := bind_eq_ok.1 h
  obtain ⟨⟨sf, rf⟩, h4, h⟩ := bind_eq_ok.1 h
  simp only at h2 h3 h4 h
  refine ⟨pf, bf, ph, bh, sh, rh, sf, rf, h1, h2, h3, h4, ?_⟩
  revert h
  cases sh.minNll <;> cases sf.minNll <;> cases sh.minPars <;> cases sf.minPars <;>
    intro h <;> simp at h
  rw [← h]
  exact ⟨rfl, rfl, rfl, rfl, rfl⟩

end Verif
