import Verif.Model.POIMin
import Verif.Lemmas.Params
import Verif.Lemmas.Except
import Mathlib.Algebra.Order.Field.Basic
import Mathlib.Tactic.Linarith
/-! Helper lemmas about bounds and the POI minimisation. -/
namespace Verif

theorem Dict.get?_setAll_last {V : Type} (l : List (String × V)) (d : Dict V) (k : String) :
    (Dict.setAll d l).get? k = ((l.filter (·.1 = k)).getLast?.map Prod.snd).or (d.get? k) := by
  induction l generalizing d with
  | nil => simp [Dict.setAll]
  | cons a l ih =>
    obtain ⟨k', v⟩ := a
    have : Dict.setAll d ((k', v) :: l) = Dict.setAll (d.set k' v) l := rfl
    rw [this, ih, Dict.get?_set]
    by_cases h : k' = k
    · subst h
      cases hl : (l.filter (·.1 = k')).getLast? with
      | none =>
        have : l.filter (·.1 = k') = [] := by simpa using hl
        simp [this]
      | some b => simp [List.getLast?_cons, hl]
    · simp [h]

theorem Dict.nodup_keys_setAll {V : Type} (l : List (String × V)) (d : Dict V) (h : d.keys.Nodup) :
    (Dict.setAll d l).keys.Nodup := by
  induction l generalizing d with
  | nil => exact h
  | cons a l ih => exact ih _ (Dict.nodup_keys_set d _ _ h)

theorem Dict.keys_setAll {V : Type} (l : List (String × V)) (d : Dict V) :
    ∃ ex, (Dict.setAll d l).keys = d.keys ++ ex := by
  induction l generalizing d with
  | nil => exact ⟨[], by simp [Dict.setAll]⟩
  | cons a l ih =>
    obtain ⟨ex, h⟩ := ih (d.set a.1 a.2)
    rw [Dict.keys_set] at h
    by_cases hm : a.1 ∈ d.keys
    · exact ⟨ex, by simpa [hm, Dict.setAll] using h⟩
    · exact ⟨a.1 :: ex, by simpa [hm, Dict.setAll] using h⟩

theorem Dict.keys_setAll_nil {V : Type} (l : List (String × V)) (h : (l.map Prod.fst).Nodup) :
    (Dict.setAll [] l).keys = l.map Prod.fst := by
  suffices ∀ d : Dict V, (∀ k ∈ l.map Prod.fst, k ∉ d.keys) →
      (Dict.setAll d l).keys = d.keys ++ l.map Prod.fst by
    simpa [Dict.keys] using this [] (by simp [Dict.keys])
  induction l with
  | nil => intro d _; simp [Dict.setAll]
  | cons a l ih =>
    intro d hd
    rw [List.map_cons, List.nodup_cons] at h
    have e : Dict.setAll d (a :: l) = Dict.setAll (d.set a.1 a.2) l := rfl
    have h1 : a.1 ∉ d.keys := hd _ (by simp)
    rw [e, ih h.2, Dict.keys_set, if_neg h1]
    · simp
    · intro k hk
      rw [Dict.keys_set, if_neg h1]
      simp only [List.mem_append, List.mem_singleton, not_or]
      exact ⟨hd k (by simp [List.mem_map] at hk ⊢; right; exact hk), fun e => h.1 (e ▸ hk)⟩

/-- Keys are distinct and every entry is stored under its own parameter name. -/
def BInv {K : Type} (d : Dict (ParBound K)) : Prop := d.keys.Nodup ∧ ∀ e ∈ d, e.2.par = e.1

theorem Dict.mem_set {V : Type} (d : Dict V) (k : String) (v : V) (e : String × V)
    (h : e ∈ d.set k v) : e ∈ d ∨ e = (k, v) := by
  induction d with
  | nil => right; simpa [Dict.set] using h
  | cons a d ih =>
    obtain ⟨k', v'⟩ := a
    by_cases hk : k' = k
    · simp only [Dict.set, hk, if_true, List.mem_cons] at h
      rcases h with h | h
      · right; exact h
      · left; simp [h]
    · simp only [Dict.set, hk, if_false, List.mem_cons] at h
      rcases h with h | h
      · left; simp [h]
      · rcases ih h with h | h
        · left; simp [h]
        · right; exact h

theorem BInv.setAll {K : Type} (d : Dict (ParBound K)) (h : BInv d)
    (l : List (String × ParBound K)) (hl : ∀ e ∈ l, e.2.par = e.1) : BInv (Dict.setAll d l) := by
  induction l generalizing d with
  | nil => exact h
  | cons a l ih =>
    refine ih (d.set a.1 a.2) ⟨Dict.nodup_keys_set _ _ _ h.1, ?_⟩ (fun e he => hl e (by simp [he]))
    intro e he
    rcases Dict.mem_set _ _ _ _ he with h1 | h1
    · exact h.2 e h1
    · subst h1; exact hl a (by simp)

theorem BInv.map_par {K : Type} {d : Dict (ParBound K)} (h : BInv d) :
    d.values.map (·.par) = d.keys := by
  simp only [Dict.values, Dict.keys, List.map_map]
  exact List.map_congr_left fun e he => h.2 e he

section
variable {K : Type} [Field K] [LinearOrder K]

theorem buildBounds_inv (pois : List (PoiRange K)) (bounds : Option (List (ParBound K)))
    (hypo : Option (Dict K)) (fix : Bool) (d : Dict (ParBound K))
    (h : buildBounds pois bounds hypo fix = .ok d) : BInv d := by
  have h0 : BInv (Dict.setAll [] (pois.map fun b => (b.par, b))) :=
    BInv.setAll [] ⟨by simp [Dict.keys], by simp⟩ _ (by simp)
  have h1 : BInv (argBounds pois bounds) := by
    cases bounds with
    | none => exact h0
    | some bs => unfold argBounds; exact BInv.setAll _ h0 _ (by simp)
  cases fix with
  | false => 
    have := Except.ok.inj (ε := PyErr) (by simpa [buildBounds] using h)
    rw [← this]; exact h1
  | true =>
    cases hypo with
    | none => simp [buildBounds] at h
    | some hy =>
      have := Except.ok.inj (ε := PyErr) (by simpa [buildBounds] using h)
      rw [← this]
      refine BInv.setAll _ h1 _ ?_
      intro e he
      obtain ⟨kv, _, rfl⟩ := List.mem_map.1 he
      rfl

theorem filter_map_pair {V : Type} (l : List V) (f : V → String) (k : String) :
    ((l.map fun b => (f b, b)).filter (·.1 = k)).getLast?.map Prod.snd
      = (l.filter (fun b => f b = k)).getLast? := by
  rw [List.filter_map, List.getLast?_map, Option.map_map]
  simp [Function.comp_def]

theorem buildBounds_get? (pois : List (PoiRange K)) (bounds : Option (List (ParBound K)))
    (hypo : Option (Dict K)) (fix : Bool) (d : Dict (ParBound K))
    (h : buildBounds pois bounds hypo fix = .ok d) (n : String) :
    d.get? n =
      ((if fix then ((hypo.getD []).filter (·.1 = n)).getLast?.map
          (fun kv => ({ par := n, min := some kv.2, max := some kv.2 } : ParBound K)) else none).or
        (((bounds.getD []).filter (·.par = n)).getLast?)).or
      ((pois.filter (·.par = n)).getLast?) := by
  have h1 : Dict.get? (argBounds pois bounds) n = (((bounds.getD []).filter (·.par = n)).getLast?).or
      ((pois.filter (·.par = n)).getLast?) := by
    cases bounds with
    | none =>
      simp only [argBounds, Dict.get?_setAll_last, filter_map_pair]
      simp
    | some bs =>
      simp only [argBounds, Dict.get?_setAll_last, filter_map_pair]
      simp
  cases fix with
  | false => 
    have := Except.ok.inj (ε := PyErr) (by simpa [buildBounds] using h)
    rw [← this, h1]; simp
  | true =>
    cases hypo with
    | none => simp [buildBounds] at h
    | some hy =>
      have := Except.ok.inj (ε := PyErr) (by simpa [buildBounds] using h)
      rw [← this, Dict.get?_setAll_last, h1, List.filter_map, List.getLast?_map, Option.map_map]
      simp only [Option.getD_some, if_true, Option.or_assoc, Function.comp_def]
      congr 1
      cases hl : (hy.filter (·.1 = n)).getLast? with
      | none => simp
      | some kv =>
        have := List.mem_of_getLast? hl
        simp only [List.mem_filter, decide_eq_true_eq] at this
        simp [this.2]

/-- The value left in the start point by one bound. -/
def clampVal (b : ParBound K) (v : K) : Except PyErr K := if b.testValue v then .ok v else b.mid

def ShapedL (m : ParModel K) (p : Pars K) : Prop :=
  p.pois.length = m.pois.length ∧ p.nps.length = m.nps.length

def KnownL (m : ParModel K) (n : String) : Prop := n ∈ m.pois ∨ ∃ q ∈ m.nps, q.name = n

theorem set_spec' (m : ParModel K) (p : Pars K) (n : String) (v : K)
    (hs : ShapedL m p) (h : KnownL m n) :
    ∃ q, p.set m n v false = .ok q ∧ ShapedL m q ∧ q.get m n = .ok v ∧
      ∀ k, k ≠ n → q.get m k = p.get m k := by
  obtain ⟨q, e, s, g, o⟩ := Pars.set_spec m p n v false hs.1 hs.2 h
  exact ⟨q, e, s, by simpa using g, o⟩

theorem get_known_of_ok (m : ParModel K) (p : Pars K) (n : String) (v : K)
    (h : p.get m n = .ok v) : KnownL m n := by
  by_contra hc
  have := (Pars.unknown_error m p n hc).1
  rw [this] at h; cases h

theorem clampInit_spec (m : ParModel K) (bs : List (ParBound K)) (p q : Pars K)
    (hs : ShapedL m p) (hn : (bs.map (·.par)).Nodup) (h : clampInit m bs p = .ok q) :
    ShapedL m q ∧ (∀ b ∈ bs, ∃ v w, p.get m b.par = .ok v ∧ clampVal b v = .ok w ∧
        q.get m b.par = .ok w) ∧
      ∀ n, n ∉ bs.map (·.par) → q.get m n = p.get m n := by
  induction bs generalizing p with
  | nil =>
    have := Except.ok.inj h; subst this
    exact ⟨hs, by simp, by simp⟩
  | cons b bs ih =>
    rw [List.map_cons, List.nodup_cons] at hn
    rw [clampInit] at h
    obtain ⟨v, hv, h⟩ := bind_eq_ok.1 h
    have hk := get_known_of_ok m p b.par v hv
    -- the intermediate point
    have key : ∃ p', ShapedL m p' ∧ clampInit m bs p' = .ok q ∧
        (∃ w, clampVal b v = .ok w ∧ p'.get m b.par = .ok w) ∧
        ∀ n, n ≠ b.par → p'.get m n = p.get m n := by
      by_cases ht : b.testValue v = true
      · rw [if_pos ht] at h
        exact ⟨p, hs, h, ⟨v, by simp [clampVal, ht], hv⟩, fun _ _ => rfl⟩
      · rw [if_neg ht] at h
        obtain ⟨c, hc, h⟩ := bind_eq_ok.1 h
        obtain ⟨p', hp', h⟩ := bind_eq_ok.1 h
        obtain ⟨q', e', s', g', o'⟩ := set_spec' m p b.par c hs hk
        have : q' = p' := Except.ok.inj (e' ▸ hp')
        subst this
        exact ⟨q', s', h, ⟨c, by simp [clampVal, ht, hc], g'⟩, o'⟩
    obtain ⟨p', hs', h', ⟨w, hw, hg⟩, ho⟩ := key
    obtain ⟨s, hb, hr⟩ := ih p' hs' hn.2 h'
    refine ⟨s, ?_, ?_⟩
    · intro b' hb'
      rcases List.mem_cons.1 hb' with e | hb'
      · subst e
        exact ⟨v, w, hv, hw, by rw [hr _ hn.1, hg]⟩
      · obtain ⟨v', w', h1, h2, h3⟩ := hb b' hb'
        have hne : b'.par ≠ b.par := fun e => hn.1 (e ▸ List.mem_map_of_mem hb')
        exact ⟨v', w', by rw [← ho _ hne]; exact h1, h2, h3⟩
    · intro n hnn
      simp only [List.map_cons, List.mem_cons, not_or] at hnn
      rw [hr n hnn.2, ho n hnn.1]

theorem clampInit_ok (m : ParModel K) (bs : List (ParBound K)) (p : Pars K)
    (hs : ShapedL m p) (hk : ∀ b ∈ bs, KnownL m b.par)
    (h2 : ∀ b ∈ bs, b.min ≠ none ∧ b.max ≠ none) : ∃ q, clampInit m bs p = .ok q := by
  induction bs generalizing p with
  | nil => exact ⟨p, rfl⟩
  | cons b bs ih =>
    obtain ⟨v, hv⟩ := Pars.get_known m p b.par hs.1 hs.2 (hk b (by simp))
    rw [clampInit, hv, bind_ok]
    by_cases ht : b.testValue v = true
    · rw [if_pos ht]
      exact ih p hs (fun b' h => hk b' (by simp [h])) (fun b' h => h2 b' (by simp [h]))
    · rw [if_neg ht]
      obtain ⟨lo, hlo⟩ := Option.ne_none_iff_exists'.1 (h2 b (by simp)).1
      obtain ⟨hi, hhi⟩ := Option.ne_none_iff_exists'.1 (h2 b (by simp)).2
      obtain ⟨q', e', s', _⟩ := set_spec' m p b.par ((lo + hi) / 2) hs (hk b (by simp))
      have : b.mid = .ok ((lo + hi) / 2) := by simp [ParBound.mid, hlo, hhi]
      rw [this, bind_ok, e', bind_ok]
      exact ih q' s' (fun b' h => hk b' (by simp [h])) (fun b' h => h2 b' (by simp [h]))

theorem setHypo_spec (m : ParModel K) (h : Dict K) (p : Pars K) (hs : ShapedL m p)
    (hk : ∀ e ∈ h, KnownL m e.1) :
    ∃ q, setHypo m h p = .ok q ∧ ShapedL m q ∧
      ∀ n, q.get m n = match (h.filter (·.1 = n)).getLast? with
        | some e => .ok e.2
        | none => p.get m n := by
  induction h generalizing p with
  | nil => exact ⟨p, rfl, hs, fun n => by simp⟩
  | cons a h ih =>
    obtain ⟨k, v⟩ := a
    obtain ⟨p1, e1, s1, g1, o1⟩ := set_spec' m p k v hs (hk (k, v) (by simp))
    obtain ⟨q, e2, s2, g2⟩ := ih p1 s1 (fun e he => hk e (by simp [he]))
    refine ⟨q, by rw [setHypo, e1, bind_ok, e2], s2, fun n => ?_⟩
    rw [g2 n]
    by_cases hn : k = n
    · subst hn
      cases hl : (h.filter (·.1 = k)).getLast? with
      | none =>
        have : h.filter (·.1 = k) = [] := by simpa using hl
        simp [this, g1]
      | some b => simp [List.getLast?_cons, hl]
    · simp [hn, o1 n (fun e => hn e.symm)]

theorem setHypo_known (m : ParModel K) (h : Dict K) (p q : Pars K) (hq : setHypo m h p = .ok q) :
    ∀ e ∈ h, KnownL m e.1 := by
  induction h generalizing p with
  | nil => simp
  | cons a h ih =>
    obtain ⟨k, v⟩ := a
    rw [setHypo] at hq
    obtain ⟨p1, e1, hq⟩ := bind_eq_ok.1 hq
    intro e he
    rcases List.mem_cons.1 he with he | he
    · subst he
      by_contra hc
      rw [(Pars.unknown_error m p k hc).2] at e1; cases e1
    · exact ih p1 hq e he

theorem testValue_iff (b : ParBound K) (v : K) :
    b.testValue v = true ↔ (∀ lo, b.min = some lo → lo ≤ v) ∧ (∀ hi, b.max = some hi → v ≤ hi) := by
  rcases b with ⟨n, lo, hi⟩
  cases lo <;> cases hi <;> simp [ParBound.testValue]

theorem clampVal_within [IsStrictOrderedRing K] (b : ParBound K) (v w : K)
    (hb : ∀ lo hi, b.min = some lo → b.max = some hi → lo ≤ hi)
    (h : clampVal b v = .ok w) : b.testValue w = true := by
  unfold clampVal at h
  by_cases ht : b.testValue v = true
  · rw [if_pos ht] at h
    exact Except.ok.inj h ▸ ht
  · rw [if_neg ht] at h
    rcases b with ⟨n, lo, hi⟩
    cases lo <;> cases hi <;> simp [ParBound.mid] at h
    rename_i lo hi
    have := hb lo hi rfl rfl
    subst h
    simp only [ParBound.testValue, Bool.and_eq_true, decide_eq_true_eq]
    constructor <;> linarith

theorem setPois_inv (m : ParModel K) (pois : List (PoiRange K)) (init : Pars K)
    (bounds : Option (List (ParBound K))) (hypo : Option (Dict K)) (fix : Bool) 
    (p : Pars K) (d : Dict (ParBound K)) (h : setPois m pois init bounds hypo fix = .ok (p, d)) :
    ∃ p1, setHypo m (hypo.getD []) init = .ok p1 ∧ buildBounds pois bounds hypo fix = .ok d ∧
      clampInit m d.values p1 = .ok p := by
  unfold setPois at h
  obtain ⟨p1, h1, h⟩ := bind_eq_ok.1 h
  obtain ⟨d1, h2, h⟩ := bind_eq_ok.1 h
  obtain ⟨p2, h3, h⟩ := bind_eq_ok.1 h
  have := Except.ok.inj h
  simp only [Prod.mk.injEq] at this
  obtain ⟨rfl, rfl⟩ := this
  exact ⟨p1, h1, h2, h3⟩

/-! ### the scan over free POIs -/

theorem freeBounds_inv (d : Dict (ParBound K)) (fr : List (Nat × ParBound K))
    (h : freeBounds d = .ok fr) :
    (fr.map Prod.fst).Nodup ∧
    (∀ i b, (i, b) ∈ fr ↔ d.values[i]? = some b ∧ b.isFree = .ok true) ∧
    ∀ b ∈ d.values, ∃ r, b.isFree = .ok r := by
  unfold freeBounds at h
  obtain ⟨fl, h1, h⟩ := bind_eq_ok.1 h
  have := Except.ok.inj h
  subst this
  have hf := mapM_ok_iff.1 h1
  have hlen := hf.length_eq
  have hget : ∀ i (hi : i < d.values.length), ∃ r, fl[i]? = some (d.values[i], r) ∧
      d.values[i].isFree = .ok r := by
    intro i hi
    have hi' : i < fl.length := hlen ▸ hi
    have := (List.forall₂_iff_get.1 hf).2 i hi hi'
    obtain ⟨r, hr, e⟩ := bind_eq_ok.1 this
    have e := Except.ok.inj e
    refine ⟨r, ?_, hr⟩
    rw [List.getElem?_eq_getElem hi']
    simp only [List.get_eq_getElem] at e
    rw [← e]
  refine ⟨?_, ?_, ?_⟩
  · rw [List.map_map]
    have : (List.map (Prod.fst ∘ fun e : (ParBound K × Bool) × Nat => (e.2, e.1.1))
      (fl.zipIdx.filter fun e => e.1.2)).Sublist (fl.zipIdx.map Prod.snd) := by
      exact (List.filter_sublist).map _
    refine this.nodup ?_
    rw [List.zipIdx_map_snd]
    exact List.nodup_range'
  · intro i b
    simp only [List.mem_map, List.mem_filter, Prod.mk.injEq, Prod.exists]
    constructor
    · rintro ⟨b', r, j, ⟨hm, hr⟩, rfl, rfl⟩
      have := List.mem_zipIdx_iff_getElem?.1 hm
      simp only at this hr
      subst hr
      have hj : j < d.values.length := by
        rw [hlen]; exact (List.getElem?_eq_some_iff.1 this).1
      obtain ⟨r', h2, h3⟩ := hget j hj
      rw [this] at h2
      simp only [Option.some.injEq, Prod.mk.injEq] at h2
      refine ⟨?_, ?_⟩
      · rw [List.getElem?_eq_getElem hj, h2.1]
      · rw [h2.1, h3, h2.2]
    · rintro ⟨h2, h3⟩
      obtain ⟨hi, e⟩ := List.getElem?_eq_some_iff.1 h2
      obtain ⟨r', h4, h5⟩ := hget i hi
      rw [e] at h4 h5
      have : r' = true := Except.ok.inj (h5 ▸ h3)
      subst this
      exact ⟨b, true, i, ⟨List.mem_zipIdx_iff_getElem?.2 h4, rfl⟩, rfl, rfl⟩
  · intro b hb
    obtain ⟨i, hi, e⟩ := List.getElem_of_mem hb
    obtain ⟨r, _, h⟩ := hget i hi
    exact ⟨r, by rw [← e]; exact h⟩

theorem updateHypo_spec (l : List (Nat × K)) (p q : Pars K) (hn : (l.map Prod.fst).Nodup)
    (h : updateHypo l p = .ok q) :
    q.nps = p.nps ∧ q.pois.length = p.pois.length ∧
    (∀ e ∈ l, q.pois[e.1]? = some e.2) ∧
    ∀ j, j ∉ l.map Prod.fst → q.pois[j]? = p.pois[j]? := by
  induction l generalizing p with
  | nil =>
    have := Except.ok.inj h; subst this
    simp
  | cons a l ih =>
    obtain ⟨i, v⟩ := a
    rw [List.map_cons, List.nodup_cons] at hn
    rw [updateHypo] at h
    by_cases hi : i < p.pois.length
    · rw [if_pos hi] at h
      obtain ⟨h1, h2, h3, h4⟩ := ih _ hn.2 h
      refine ⟨h1, by simpa using h2, ?_, ?_⟩
      · intro e he
        rcases List.mem_cons.1 he with e' | he
        · subst e'
          rw [h4 i hn.1]
          simp [hi]
        · exact h3 e he
      · intro j hj
        simp only [List.map_cons, List.mem_cons, not_or] at hj
        rw [h4 j hj.2]
        simp [List.getElem?_set_ne (Ne.symm hj.1)]
    · rw [if_neg hi] at h; cases h

end
end Verif
