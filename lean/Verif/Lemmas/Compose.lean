import Verif.Spec.Compose
import Verif.Lemmas.POIFit
import Verif.Props.POIMin
/-! Helper lemmas for whole computations of the profile likelihood ratio. -/
namespace Verif
open Spec Props
section
variable {K : Type} [Field K] [LinearOrder K]

theorem updateHypo_total (l : List (Nat × K)) (p : Pars K) (h : ∀ e ∈ l, e.1 < p.pois.length) :
    ∃ q, updateHypo l p = .ok q := by
  induction l generalizing p with
  | nil => exact ⟨p, rfl⟩
  | cons a l ih =>
    obtain ⟨i, v⟩ := a
    rw [updateHypo, if_pos (h (i, v) (by simp))]
    exact ih _ (fun e he => by simpa using h e (by simp [he]))

/-- The bounds of the second call are those of the first one, overridden by the hypothesis. -/
theorem effBound_values (pois : List (PoiRange K)) (bounds : Option (List (ParBound K)))
    (hypo fixed : Dict K) (bf : Dict (ParBound K)) (h : buildBounds pois bounds (some hypo) false = .ok bf)
    (n : String) :
    effBound pois bf.values fixed n = effBound pois (bounds.getD []) fixed n := by
  have hinv := buildBounds_inv _ _ _ _ _ h
  have hbf := effBound_eq pois bounds (some hypo) false bf h n
  unfold effBound at *
  cases hl : lastFor fixed n with
  | some v => rfl
  | none =>
    simp only
    rw [hinv.lastBound_values n, hbf]
    simp only [Bool.false_eq_true, if_false, lastFor, List.filter_nil, List.getLast?_nil, Option.map_none]
    cases lastBound (bounds.getD []) n with
    | some b => rfl
    | none => cases lastBound pois n <;> rfl

theorem effBound_some (m : ParModel K) (pois : List (PoiRange K)) (bounds : List (ParBound K))
    (fixed : Dict K) (hm : pois.map (·.par) = m.pois) (n : String) (hn : n ∈ m.pois) :
    ∃ b, effBound pois bounds fixed n = some b := by
  unfold effBound
  cases lastFor fixed n with
  | some v => exact ⟨_, rfl⟩
  | none =>
    cases lastBound bounds n with
    | some b => exact ⟨b, rfl⟩
    | none =>
      simp only [lastBound]
      rw [← hm] at hn
      obtain ⟨b, hb, rfl⟩ := List.mem_map.1 hn
      have hne : pois.filter (fun c => decide (c.par = b.par)) ≠ [] :=
        List.ne_nil_of_mem (List.mem_filter.2 ⟨hb, by simp⟩)
      exact ⟨_, List.getLast?_eq_some_getLast hne⟩

theorem effBound_mem (m : ParModel K) (pois : List (PoiRange K)) (bounds : List (ParBound K))
    (fixed : Dict K) (hm : pois.map (·.par) = m.pois) (hf : ∀ e ∈ fixed, e.1 ∈ m.pois)
    (hb : ∀ b ∈ bounds, b.par ∈ m.pois) (n : String) (b : ParBound K)
    (h : effBound pois bounds fixed n = some b) : n ∈ m.pois := by
  unfold effBound at h
  cases hl : lastFor fixed n with
  | some v =>
    obtain ⟨e, he1, _⟩ := Option.map_eq_some_iff.1 hl
    have := List.mem_of_getLast? he1
    simp only [List.mem_filter, decide_eq_true_eq] at this
    rw [← this.2]; exact hf e this.1
  | none =>
    rw [hl] at h
    cases hb' : lastBound bounds n with
    | some b1 =>
      have := List.mem_of_getLast? hb'
      simp only [List.mem_filter, decide_eq_true_eq] at this
      rw [← this.2]; exact hb b1 this.1
    | none =>
      rw [hb'] at h
      simp only at h
      have := List.mem_of_getLast? h
      simp only [List.mem_filter, decide_eq_true_eq] at this
      rw [← hm, ← this.2]; exact List.mem_map_of_mem this.1

/-- One fit by an optimal optimiser finds the smallest profiled NLL over the points allowed. -/
theorem fit_least [IsStrictOrderedRing K] (env : FitEnv K) (m : ParModel K) (pois : List (PoiRange K))
    (init p0 : Pars K) (bounds : Option (List (ParBound K))) (hypo : Dict K) (fix : Bool)
    (d : Dict (ParBound K)) (method : String) (run : OptRun K) (st' : MinSt K) (r : MinRet K)
    (hm : pois.map (·.par) = m.pois) (hn : m.pois.Nodup) (hs : Shaped m init)
    (hhyp : ∀ e ∈ hypo, e.1 ∈ m.pois) (hbp : ∀ b ∈ bounds.getD [], b.par ∈ m.pois)
    (hle : ∀ n b lo hi, effBound pois (bounds.getD []) (if fix then hypo else []) n = some b →
      b.min = some lo → b.max = some hi → lo ≤ hi)
    (hset : setPois m pois init bounds (some hypo) fix = .ok (p0, d))
    (hmin : minimize env m { method := method, initPois := p0, bounds := d } run = .ok (st', r))
    (hopt : ∀ fr, freeBounds d = .ok fr → fr ≠ [] → Optimal env p0 fr run) :
    ∃ v, st'.minNll = some v ∧
      IsLeast (profNlls env m pois (bounds.getD []) (if fix then hypo else []) init.nps) v := by
  obtain ⟨p1, g1, g2, g3⟩ := setPois_inv m pois init _ _ _ p0 d hset
  obtain ⟨hinv, s0, _, _⟩ := setPois_facts m pois init _ _ _ p0 d hs hset
  obtain ⟨ex, hk⟩ := buildBounds_keys _ _ _ _ _ g2 (by rw [hm]; exact hn)
  rw [hm] at hk
  have hbd : ∀ n, d.get? n = effBound pois (bounds.getD []) (if fix then hypo else []) n := by
    intro n
    simpa using c21_bounds m pois init p0 bounds (some hypo) fix d hset n
  have hfix : ∀ e ∈ (if fix then hypo else []), e.1 ∈ m.pois := by
    cases fix <;> simpa using hhyp
  have hpar : ∀ n b, d.get? n = some b → n ∈ m.pois := fun n b hb =>
    effBound_mem m pois _ _ hm hfix hbp n b (by rw [← hbd n]; exact hb)
  have hnps : p0.nps = init.nps := by
    rw [clampInit_nps m d.values p1 p0 _ g3, setHypo_nps m hypo init p1 hhyp g1]
    intro b hb
    obtain ⟨⟨k, b'⟩, he, rfl⟩ := List.mem_map.1 hb
    have := hpar k b' ((Dict.get?_eq_some_iff d hinv.1 k b').2 he)
    rw [hinv.2 _ he]; exact this
  have hstart : InBox m pois (bounds.getD []) (if fix then hypo else []) p0 := by
    intro n hmem b hb
    refine c21_start_within m pois init p0 bounds (some hypo) fix d hs hset n b (by simpa using hb)
      (fun lo hi => hle n b lo hi hb)
  obtain ⟨fr, hfr, hcase⟩ := minimize_inv env m _ st' run r hmin
  simp only at hfr
  obtain ⟨f1, f2, f3⟩ := freeBounds_inv d fr hfr
  -- every allowed point is reached from the start point
  have hreach : ∀ p : Pars K, p.pois.length = m.pois.length → p.nps = init.nps →
      InBox m pois (bounds.getD []) (if fix then hypo else []) p →
      ∃ y, InFreeBox fr y ∧ updateHypo ((fr.map Prod.fst).zip y) p0 = .ok p := by
    intro p hlen hnp hbox
    have hidx : ∀ i b, (i, b) ∈ fr → i < m.pois.length ∧ ∃ n ∈ m.pois, m.pois.idxOf n = i ∧ d.get? n = some b := by
      intro i b hib
      obtain ⟨e1, _⟩ := (f2 i b).1 hib
      obtain ⟨hi, e2⟩ := List.getElem?_eq_some_iff.1 e1
      have hik : i < d.keys.length := by simpa [Dict.keys, Dict.values] using hi
      have hget := hinv.get?_getElem i d.keys[i] (List.getElem?_eq_getElem hik)
      rw [e1] at hget
      have hmem := hpar _ _ hget
      have hnd := hinv.1
      rw [hk] at hnd
      have hil : i < m.pois.length := by
        by_contra hc
        rw [List.nodup_append] at hnd
        have : d.keys[i] ∈ ex := by
          have : d.keys[i] = (m.pois ++ ex)[i]'(by rw [← hk]; exact hik) := by simp only [hk]
          rw [this, List.getElem_append_right (by omega)]
          exact List.getElem_mem _
        exact hnd.2.2 _ hmem _ this rfl
      refine ⟨hil, d.keys[i], hmem, ?_, hget⟩
      have : d.keys[i] = m.pois[i] := by
        have : d.keys[i] = (m.pois ++ ex)[i]'(by rw [← hk]; exact hik) := by simp only [hk]
        rw [this, List.getElem_append_left hil]
      rw [this]
      exact hn.idxOf_getElem i hil
    refine ⟨fr.map fun b => p.pois.getD b.1 0, ?_, ?_⟩
    · unfold InFreeBox
      rw [List.forall₂_map_right_iff, List.forall₂_same]
      rintro ⟨i, b⟩ hib
      obtain ⟨hil, n, hmem, hni, hget⟩ := hidx i b hib
      obtain ⟨w, hw, hal⟩ := hbox n hmem b (by rw [← hbd n]; exact hget)
      rw [get_poi m p n hmem, hni] at hw
      simp only [List.getD_eq_getElem?_getD, hw, Option.getD_some]
      exact hal
    · have hzip : (fr.map Prod.fst).zip (fr.map fun b => p.pois.getD b.1 0) =
          fr.map fun b => (b.1, p.pois.getD b.1 0) := by
        rw [List.zip_map']
      rw [hzip]
      obtain ⟨q, hq⟩ := updateHypo_total (fr.map fun b => (b.1, p.pois.getD b.1 0)) p0 (by
        intro e he
        obtain ⟨⟨i, b⟩, hib, rfl⟩ := List.mem_map.1 he
        have := (hidx i b hib).1
        rw [s0.1]; exact this)
      obtain ⟨u1, u2, u3, u4⟩ := updateHypo_spec _ p0 q (by
        rw [List.map_map]; exact f1) hq
      have hqp : q = p := by
        have e1 : q.nps = p.nps := by rw [u1, hnps, hnp]
        have e2 : q.pois = p.pois := by
          refine List.ext_getElem? fun i => ?_
          by_cases hi : i < m.pois.length
          · by_cases hfri : i ∈ (fr.map fun b => (b.1, p.pois.getD b.1 0)).map Prod.fst
            · obtain ⟨e, he, rfl⟩ := List.mem_map.1 hfri
              rw [u3 e he]
              obtain ⟨b, hb, rfl⟩ := List.mem_map.1 he
              simp only
              simp only [] at hi
              rw [List.getD_eq_getElem?_getD, List.getElem?_eq_getElem (by rw [hlen]; exact hi)]
              rfl
            · rw [u4 i hfri]
              have hmem : m.pois[i] ∈ m.pois := List.getElem_mem hi
              have hio : m.pois.idxOf m.pois[i] = i := hn.idxOf_getElem i hi
              obtain ⟨b, hb⟩ := effBound_some m pois (bounds.getD []) (if fix then hypo else []) hm _ hmem
              obtain ⟨w, hw, hal⟩ := hbox _ hmem b hb
              obtain ⟨w0, hw0, hal0⟩ := hstart _ hmem b hb
              rw [get_poi m _ _ hmem, hio] at hw hw0
              rw [hw, hw0]
              have hdb : d.get? m.pois[i] = some b := by rw [hbd]; exact hb
              have hdi : d.values[i]? = some b := by
                rw [← hinv.get?_getElem i m.pois[i] ?_]
                · exact hdb
                · rw [hk, List.getElem?_append_left hi, List.getElem?_eq_getElem hi]
              have hmv := List.mem_of_getElem? hdi
              obtain ⟨isf, hisf⟩ := f3 b hmv
              have : isf = false := by
                cases isf with
                | false => rfl
                | true =>
                  exfalso; apply hfri
                  rw [List.map_map]
                  exact List.mem_map.2 ⟨(i, b), (f2 i b).2 ⟨hdi, hisf⟩, rfl⟩
              subst this
              rcases b with ⟨nb, lo, hi'⟩
              cases lo with
              | none => simp [ParBound.isFree] at hisf
              | some lo =>
                cases hi' with
                | none => simp [ParBound.isFree] at hisf
                | some hi' =>
                  simp only [ParBound.isFree] at hisf
                  have := Except.ok.inj hisf
                  simp only [decide_eq_false_iff_not, not_lt] at this
                  have h1 := hal.1 lo rfl
                  have h2 := hal.2 hi' rfl
                  have h3 := hal0.1 lo rfl
                  have h4 := hal0.2 hi' rfl
                  have : w0 = w := le_antisymm (h4.trans (this.trans h1)) (h2.trans (this.trans h3))
                  rw [this]
          · rw [List.getElem?_eq_none (by rw [u2, s0.1]; omega), List.getElem?_eq_none (by omega)]
        rcases q with ⟨a, b⟩
        rcases p with ⟨a', b'⟩
        simp only at e1 e2
        rw [e1, e2]
      rw [hq, hqp]
  rcases hcase with ⟨hnil, _, v, q, hp, ev, _⟩ | ⟨hne, es, hes, e, hsu, _⟩
  · obtain ⟨a1, a2⟩ := profileAt_inv env _ _ _ hp
    refine ⟨v, ev, ⟨p0, s0.1, hnps, hstart, q, a1, a2⟩, ?_⟩
    rintro v' ⟨p, hlen, hnp, hbox, q', b1, b2⟩
    obtain ⟨y, hy, hu⟩ := hreach p hlen hnp hbox
    subst hnil
    simp only [List.map_nil, List.zip_nil_left, updateHypo] at hu
    have := Except.ok.inj hu
    subst this
    simp only at a1
    rw [a1] at b1
    have := Except.ok.inj b1
    subst this
    rw [a2] at b2
    exact (Except.ok.inj b2).le
  · obtain ⟨hs1, hbx, ⟨q, hev⟩, hall⟩ := hopt fr hfr hne
    refine ⟨run.fn, (hsu hs1).1, ?_, ?_⟩
    · obtain ⟨p, hu, hpr, hv⟩ := evalAt_inv env _ fr _ _ _ hev
      obtain ⟨sp, np, hal⟩ := evalPoint m d hinv ex hk hn fr hfr _ p0 p s0 hu
      refine ⟨p, sp.1, np.trans hnps, ?_, q, hpr, hv⟩
      intro n hmem b hb
      obtain ⟨b', w, hb', hw, hff, hft⟩ := hal n hmem
      have hbb : b' = b := by
        rw [hbd n, hb] at hb'
        exact (Option.some.inj hb').symm
      subst hbb
      have hmemb := (Dict.get?_eq_some_iff d hinv.1 n b').1 hb'
      obtain ⟨isf, hisf⟩ := f3 b' (List.mem_map.2 ⟨_, hmemb, rfl⟩)
      cases isf with
      | false =>
        obtain ⟨w', hw', hal'⟩ := hstart n hmem b' hb
        have : w' = w := Except.ok.inj (hw'.symm.trans (hff hisf))
        exact ⟨w, hw, this ▸ hal'⟩
      | true =>
        exact ⟨w, hw, (allows_iff b' w).1 (hft hisf (hbx.imp fun a c h => (allows_iff a.2 c).2 h))⟩
    · rintro v' ⟨p, hlen, hnp, hbox, q', b1, b2⟩
      obtain ⟨y, hy, hu⟩ := hreach p hlen hnp hbox
      refine hall y v' q' hy ?_
      simp only [evalAt, hu, bind_ok, profileAt, b1, b2, pure_ok]

end
end Verif
