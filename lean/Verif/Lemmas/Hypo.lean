import Verif.Model.Hypo
import Verif.Lemmas.Dict
import Verif.Lemmas.Except
import Mathlib.Tactic
/-! Helper lemmas on hypotheses as dict keys. -/
namespace Verif
open Classical

/-- A Python dict has no repeated keys. -/
def Hypo.WF (a : Hypo) : Prop := (Dict.keys a).Nodup

namespace Hypo

theorem eqv_iff {a b : Hypo} (ha : a.WF) (hb : b.WF) :
    a.eqv b ↔ ∀ k, Dict.get? a k = Dict.get? b k := by
  constructor
  · rintro ⟨hl, h⟩ k
    have hsub : Dict.keys a ⊆ Dict.keys b := by
      intro k hk
      obtain ⟨v, hv⟩ := (Dict.mem_keys_iff a k).1 hk
      have := h (k, v) ((Dict.get?_eq_some_iff a ha k v).1 hv)
      exact (Dict.mem_keys_iff b k).2 ⟨v, this⟩
    have hlen : (Dict.keys a).length = (Dict.keys b).length := by simpa [Dict.keys] using hl
    have hperm : (Dict.keys a).Perm (Dict.keys b) :=
      (List.subperm_of_subset ha hsub).perm_of_length_le hlen.ge
    cases hk : Dict.get? a k with
    | some v => exact (h (k, v) ((Dict.get?_eq_some_iff a ha k v).1 hk)).symm
    | none =>
      rw [Dict.get?_eq_none_iff] at hk
      symm
      rw [Dict.get?_eq_none_iff]
      intro hk'; exact hk (hperm.mem_iff.2 hk')
  · intro h
    have hmem : ∀ k, k ∈ Dict.keys a ↔ k ∈ Dict.keys b := by
      intro k; rw [Dict.mem_keys_iff, Dict.mem_keys_iff, h k]
    refine ⟨?_, ?_⟩
    · have : (Dict.keys a).Perm (Dict.keys b) := (List.perm_ext_iff_of_nodup ha hb).2 hmem
      simpa [Dict.keys] using this.length_eq
    · intro kv hkv
      rw [← h]; exact (Dict.get?_eq_some_iff a ha _ _).2 hkv

theorem eqv_refl {a : Hypo} (ha : a.WF) : a.eqv a := (eqv_iff ha ha).2 fun _ => rfl
theorem eqv_symm {a b : Hypo} (ha : a.WF) (hb : b.WF) (h : a.eqv b) : b.eqv a :=
  (eqv_iff hb ha).2 fun k => ((eqv_iff ha hb).1 h k).symm
theorem eqv_trans {a b c : Hypo} (ha : a.WF) (hb : b.WF) (hc : c.WF) (h : a.eqv b) (h' : b.eqv c) :
    a.eqv c :=
  (eqv_iff ha hc).2 fun k => ((eqv_iff ha hb).1 h k).trans ((eqv_iff hb hc).1 h' k)

theorem matches_refl (h : List String → ℕ) {a : Hypo} (ha : a.WF) : a.matches h a :=
  ⟨rfl, eqv_refl ha⟩
theorem matches_symm (h : List String → ℕ) {a b : Hypo} (ha : a.WF) (hb : b.WF)
    (hm : a.matches h b) : b.matches h a := ⟨hm.1.symm, eqv_symm ha hb hm.2⟩
theorem matches_trans (h : List String → ℕ) {a b c : Hypo} (ha : a.WF) (hb : b.WF) (hc : c.WF)
    (hm : a.matches h b) (hm' : b.matches h c) : a.matches h c :=
  ⟨hm.1.trans hm'.1, eqv_trans ha hb hc hm.2 hm'.2⟩

theorem matches_of_eqv (h : List String → ℕ) {a b : Hypo} (hk : Dict.keys a = Dict.keys b)
    (he : a.eqv b) : a.matches h b := ⟨by simp [hash, hk], he⟩

/-- Equal hypotheses with the same key order are identical. -/
theorem eq_of_eqv_keys {a b : Hypo} (ha : a.WF) (hk : Dict.keys a = Dict.keys b) (he : a.eqv b) :
    a = b := by
  have hb : b.WF := by unfold WF; rw [← hk]; exact ha
  have hg := (eqv_iff ha hb).1 he
  induction a generalizing b with
  | nil => cases b with
    | nil => rfl
    | cons kv b => simp [Dict.keys] at hk
  | cons kv a ih => cases b with
    | nil => simp [Dict.keys] at hk
    | cons kv' b =>
      obtain ⟨k, v⟩ := kv; obtain ⟨k', v'⟩ := kv'
      simp only [Dict.keys, List.map_cons, List.cons.injEq] at hk
      obtain ⟨rfl, hk⟩ := hk
      have hv : v = v' := by have := hg k; simpa [Dict.get?] using this
      subst hv
      have ha' := (List.nodup_cons.1 ha)
      have hb' := (List.nodup_cons.1 hb)
      have hg' : ∀ x, Dict.get? a x = Dict.get? b x := by
        intro x
        by_cases hx : k = x
        · subst hx
          rw [(Dict.get?_eq_none_iff a k).2 ha'.1, (Dict.get?_eq_none_iff b k).2 hb'.1]
        · have := hg x; simpa [Dict.get?, hx] using this
      rw [ih ha'.2 hk ((eqv_iff ha'.2 hb'.2).2 hg') hb'.2 hg']

end Hypo

namespace HDict
variable {V : Type}

/-- All stored keys are Python dicts. -/
def WF (d : HDict V) : Prop := ∀ kv ∈ d, Hypo.WF kv.1

theorem wf_set (h : List String → ℕ) {d : HDict V} (hd : WF d) {k : Hypo} (hk : k.WF) (v : V) :
    WF (d.set h k v) := by
  induction d with
  | nil => intro kv hkv; simp [set] at hkv; subst hkv; exact hk
  | cons kv d ih =>
    obtain ⟨k', v'⟩ := kv
    have h1 : k'.WF := hd (k', v') (by simp)
    have h2 : WF d := fun kv hkv => hd kv (by simp [hkv])
    unfold set
    split
    · intro kv hkv
      rcases List.mem_cons.1 hkv with rfl | hkv
      · exact h1
      · exact h2 kv hkv
    · intro kv hkv
      rcases List.mem_cons.1 hkv with rfl | hkv
      · exact h1
      · exact ih h2 kv hkv

theorem get?_set (h : List String → ℕ) {d : HDict V} (hd : WF d) {a b : Hypo} (ha : a.WF) (hb : b.WF)
    (v : V) : (d.set h a v).get? h b = if a.matches h b then some v else d.get? h b := by
  induction d with
  | nil => simp [set, get?]
  | cons kv d ih =>
    obtain ⟨k', v'⟩ := kv
    have h1 : k'.WF := hd (k', v') (by simp)
    have h2 : WF d := fun kv hkv => hd kv (by simp [hkv])
    unfold set
    by_cases hm : k'.matches h a
    · rw [if_pos hm]
      simp only [get?]
      by_cases hab : a.matches h b
      · rw [if_pos (Hypo.matches_trans h h1 ha hb hm hab), if_pos hab]
      · have : ¬ k'.matches h b := fun hkb =>
          hab (Hypo.matches_trans h ha h1 hb (Hypo.matches_symm h h1 ha hm) hkb)
        rw [if_neg this, if_neg hab, if_neg this]
    · rw [if_neg hm]
      simp only [get?]
      by_cases hkb : k'.matches h b
      · have hab : ¬ a.matches h b := fun hab =>
          hm (Hypo.matches_trans h h1 hb ha hkb (Hypo.matches_symm h ha hb hab))
        rw [if_pos hkb, if_neg hab, if_pos hkb]
      · rw [if_neg hkb, ih h2, if_neg hkb]

theorem get?_congr (h : List String → ℕ) {d : HDict V} (hd : WF d) {a b : Hypo} (ha : a.WF)
    (hb : b.WF) (hm : a.matches h b) : d.get? h a = d.get? h b := by
  induction d with
  | nil => rfl
  | cons kv d ih =>
    obtain ⟨k', v'⟩ := kv
    have h1 : k'.WF := hd (k', v') (by simp)
    have h2 : WF d := fun kv hkv => hd kv (by simp [hkv])
    simp only [get?]
    have : k'.matches h a ↔ k'.matches h b :=
      ⟨fun x => Hypo.matches_trans h h1 ha hb x hm,
        fun x => Hypo.matches_trans h h1 hb ha x (Hypo.matches_symm h ha hb hm)⟩
    simp only [this, ih h2]

theorem getItem_ok (h : List String → ℕ) (d : HDict V) (k : Hypo) (v : V) :
    d.getItem h k = .ok v ↔ d.get? h k = some v := by
  unfold getItem; cases d.get? h k <;> simp

end HDict
end Verif
