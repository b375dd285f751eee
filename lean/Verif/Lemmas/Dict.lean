import Verif.Model.Dict
/-! Laws of the dictionary model (helper lemmas). -/
namespace Verif.Dict
variable {V : Type _}

@[simp] theorem get?_nil (k : String) : get? ([] : Dict V) k = none := rfl

theorem get?_cons (k' : String) (v : V) (d : Dict V) (k : String) :
    get? ((k', v) :: d) k = if k' = k then some v else get? d k := rfl

theorem get?_set (d : Dict V) (k : String) (v : V) (j : String) :
    (d.set k v).get? j = if k = j then some v else d.get? j := by
  induction d with
  | nil => simp [set, get?]
  | cons a d ih =>
    obtain ⟨k', v'⟩ := a
    by_cases h : k' = k
    · subst h
      by_cases hj : k' = j <;> simp [set, get?, hj]
    · by_cases hj : k' = j
      · subst hj
        have : ¬ k = k' := fun e => h e.symm
        simp [set, get?, h, this]
      · simp [set, get?, h, hj, ih]

@[simp] theorem get?_set_self (d : Dict V) (k : String) (v : V) :
    (d.set k v).get? k = some v := by simp [get?_set]

theorem get?_set_ne (d : Dict V) {k j : String} (v : V) (h : k ≠ j) :
    (d.set k v).get? j = d.get? j := by simp [get?_set, h]

theorem get?_setOpt {α : Type _} (d : Dict V) (k : String) (x : Option α) (f : α → V)
    (j : String) :
    (d.setOpt k x f).get? j = if k = j then (x.map f).or (d.get? j) else d.get? j := by
  cases x with
  | none => simp [setOpt]
  | some a => by_cases h : k = j <;> simp [setOpt, get?_set, h]

theorem get?_eq_none_iff (d : Dict V) (k : String) : d.get? k = none ↔ k ∉ d.keys := by
  induction d with
  | nil => simp [keys]
  | cons a d ih =>
    obtain ⟨k', v'⟩ := a
    by_cases h : k' = k
    · simp [get?, h, keys]
    · have : ¬ k = k' := fun e => h e.symm
      simp only [get?, h, if_false, ih, keys, List.map_cons, List.mem_cons, this, false_or]

theorem keys_set (d : Dict V) (k : String) (v : V) :
    (d.set k v).keys = if k ∈ d.keys then d.keys else d.keys ++ [k] := by
  induction d with
  | nil => simp [set, keys]
  | cons a d ih =>
    obtain ⟨k', v'⟩ := a
    by_cases h : k' = k
    · simp [set, keys, h]
    · have hk : ¬ k = k' := fun e => h e.symm
      simp only [keys] at ih
      by_cases hm : k ∈ List.map Prod.fst d
      · simp only [hm, if_true] at ih
        simp only [set, keys, h, if_false, List.map_cons, ih, List.mem_cons, hk, false_or, hm,
          if_true]
      · simp only [hm, if_false] at ih
        simp only [set, keys, h, if_false, List.map_cons, ih, List.mem_cons, hk, false_or, hm,
          List.cons_append]

theorem nodup_keys_set (d : Dict V) (k : String) (v : V) (h : d.keys.Nodup) :
    (d.set k v).keys.Nodup := by
  rw [keys_set]
  split
  · exact h
  · rename_i hk
    rw [List.nodup_append]
    refine ⟨h, by simp, ?_⟩
    intro a ha b hb
    simp at hb
    subst hb
    intro e
    exact hk (e ▸ ha)

theorem mem_keys_iff (d : Dict V) (k : String) :
    k ∈ d.keys ↔ ∃ v, d.get? k = some v := by
  have := Dict.get?_eq_none_iff d k
  cases h : d.get? k with
  | none => simp [h] at this ⊢; exact this
  | some v => simp [h] at this ⊢; exact this

/-- Lookup in an association list with distinct keys is membership. -/
theorem get?_eq_some_iff (d : Dict V) (h : d.keys.Nodup) (k : String) (v : V) :
    d.get? k = some v ↔ (k, v) ∈ d := by
  induction d with
  | nil => simp
  | cons a d ih =>
    obtain ⟨k', v'⟩ := a
    have hn : k' ∉ keys d ∧ (keys d).Nodup := by simpa [keys] using h
    by_cases hk : k' = k
    · subst hk
      have : ∀ w, (k', w) ∉ d := fun w hw => hn.1 (List.mem_map.2 ⟨_, hw, rfl⟩)
      simp [get?, this, eq_comm]
    · have hk' : ¬ k = k' := fun e => hk e.symm
      simp [get?, hk, hk', ih hn.2]

end Verif.Dict
