import Verif.Model.ConvertWs
import Verif.Lemmas.Except
/-! # Lemmas on the model of `convert_ws.py` -/
namespace Verif
namespace Conv

theorem zeroNorms_eq (ss : List WSSample) : ∀ (v : Vals) (q : String),
    zeroNorms ss v q = if ∃ s ∈ ss, s.normpar = some q then 0 else v q := by
  induction ss with
  | nil => intro v q; simp [zeroNorms]
  | cons s ss ih =>
    intro v q
    have hstep : zeroNorms (s :: ss) v = zeroNorms ss (match s.normpar with | some p => setVal p 0 v | none => v) := rfl
    rw [hstep, ih]
    by_cases h1 : ∃ s' ∈ ss, s'.normpar = some q
    · rw [if_pos h1, if_pos]; obtain ⟨t, ht, htq⟩ := h1; exact ⟨t, List.mem_cons_of_mem _ ht, htq⟩
    · rw [if_neg h1]
      rcases hs : s.normpar with _ | p
      · rw [if_neg]
        rintro ⟨t, ht, htq⟩
        rcases List.mem_cons.1 ht with rfl | ht
        · rw [hs] at htq; cases htq
        · exact h1 ⟨t, ht, htq⟩
      · by_cases hpq : q = p
        · subst hpq
          rw [if_pos ⟨s, List.mem_cons_self .., hs⟩]; simp [setVal]
        · rw [if_neg]
          · simp [setVal, hpq]
          · rintro ⟨t, ht, htq⟩
            rcases List.mem_cons.1 ht with rfl | ht
            · rw [hs] at htq; exact hpq (Option.some.inj htq).symm
            · exact h1 ⟨t, ht, htq⟩

theorem setNorms_eq (v : Vals) (ss : List WSSample) : ∀ (w : Vals) (q : String),
    setNorms (normValues ss v) w q = if ∃ s ∈ ss, s.normpar = some q then v q else w q := by
  induction ss with
  | nil => intro w q; simp [setNorms, normValues]
  | cons s ss ih =>
    intro w q
    have hstep : setNorms (normValues (s :: ss) v) w =
        setNorms (normValues ss v) (match s.normpar with | some p => setVal p (v p) w | none => w) := by
      simp only [setNorms, normValues, List.map_cons, List.foldl_cons]
      rcases s.normpar with _ | p <;> rfl
    rw [hstep, ih]
    by_cases h1 : ∃ s' ∈ ss, s'.normpar = some q
    · rw [if_pos h1, if_pos]; obtain ⟨t, ht, htq⟩ := h1; exact ⟨t, List.mem_cons_of_mem _ ht, htq⟩
    · rw [if_neg h1]
      rcases hs : s.normpar with _ | p
      · rw [if_neg]
        rintro ⟨t, ht, htq⟩
        rcases List.mem_cons.1 ht with rfl | ht
        · rw [hs] at htq; cases htq
        · exact h1 ⟨t, ht, htq⟩
      · by_cases hpq : q = p
        · subst hpq
          rw [if_pos ⟨s, List.mem_cons_self .., hs⟩]; simp [setVal]
        · rw [if_neg]
          · simp [setVal, hpq]
          · rintro ⟨t, ht, htq⟩
            rcases List.mem_cons.1 ht with rfl | ht
            · rw [hs] at htq; exact hpq (Option.some.inj htq).symm
            · exact h1 ⟨t, ht, htq⟩

/-- The loop over the samples, when all the normalisations are 0 at the start. -/
theorem oneByOne_eq (Y : Vals → ℝ) (un : ℝ) : ∀ (ns : List (Option (String × ℝ))) (v : Vals), (∀ p x, some (p, x) ∈ ns → v p = 0) →
    oneByOne Y un ns v = (ns.map fun n => match n with | some (p, x) => Y (setVal p x v) - un | none => 0, v) := by
  intro ns
  induction ns with
  | nil => intro v _; rfl
  | cons n ns ih =>
    intro v h
    rcases n with _ | ⟨p, x⟩
    · rw [oneByOne, ih v fun p x hp => h p x (List.mem_cons_of_mem _ hp)]; rfl
    · have hv : setVal p 0 (setVal p x v) = v := by
        funext q
        by_cases hq : q = p
        · subst hq; simp [setVal, h q x (List.mem_cons_self ..)]
        · simp [setVal, hq]
      rw [oneByOne, hv, ih v fun p x hp => h p x (List.mem_cons_of_mem _ hp)]; rfl

/-- Same values of all the variables that are not normalisations. -/
def Off (ss : List WSSample) (v w : Vals) : Prop := ∀ q, (¬ ∃ s ∈ ss, s.normpar = some q) → w q = v q

theorem setNorms_off {ss : List WSSample} {v w : Vals} (h : Off ss v w) : setNorms (normValues ss v) w = v := by
  funext q
  rw [setNorms_eq]
  by_cases hq : ∃ s ∈ ss, s.normpar = some q
  · rw [if_pos hq]
  · rw [if_neg hq, h q hq]

theorem off_zero (ss : List WSSample) (v : Vals) : Off ss v (zeroNorms ss v) := fun q hq => by rw [zeroNorms_eq, if_neg hq]

theorem off_par (ss : List WSSample) (v : Vals) (p : String) (x : ℝ) : Off ss v (setVal p (v p) (zeroNorms ss (setVal p x v))) := by
  intro q hq
  by_cases h : q = p
  · subst h; simp [setVal]
  · simp [setVal, h, zeroNorms_eq]
    intro s hs hn; exact absurd ⟨s, hs, hn⟩ hq

theorem fillYields_state (Y : Vals → ℝ) (ss : List WSSample) (d : ℕ) (v : Vals) :
    (fillYields Y ss d v).2 = zeroNorms ss v := by
  rw [fillYields, oneByOne_eq]
  intro p x hp
  simp only [normValues, List.mem_map, Option.map_eq_some_iff] at hp
  obtain ⟨s, hs, p', hp', he⟩ := hp
  cases he
  rw [zeroNorms_eq, if_pos ⟨s, hs, hp'⟩]

theorem fillYields_length (Y : Vals → ℝ) (ss : List WSSample) (d : ℕ) (v : Vals) : (fillYields Y ss d v).1.length = ss.length := by
  rw [fillYields, oneByOne_eq]
  · simp [normValues]
  intro p x hp
  simp only [normValues, List.mem_map, Option.map_eq_some_iff] at hp
  obtain ⟨s, hs, p', hp', he⟩ := hp
  cases he
  rw [zeroNorms_eq, if_pos ⟨s, hs, hp'⟩]

theorem fillYields_get (Y : Vals → ℝ) (ss : List WSSample) (d : ℕ) (v : Vals) (k : Fin ss.length) :
    (fillYields Y ss d v).1[k]'(by rw [fillYields_length]; exact k.2) =
      (match ss[k].normpar with
        | some p => Y (setVal p (v p) (zeroNorms ss v)) - Y (zeroNorms ss v)
        | none => 0) + if (k : ℕ) = d then Y (zeroNorms ss v) else 0 := by
  have hz : ∀ p x, some (p, x) ∈ normValues ss v → zeroNorms ss v p = 0 := by
    intro p x hp
    simp only [normValues, List.mem_map, Option.map_eq_some_iff] at hp
    obtain ⟨s, hs, p', hp', he⟩ := hp
    cases he
    rw [zeroNorms_eq, if_pos ⟨s, hs, hp'⟩]
  simp only [fillYields, oneByOne_eq Y _ _ _ hz, Fin.getElem_fin]
  simp only [List.getElem_modify, normValues, List.getElem_map]
  by_cases hk : d = (k : ℕ)
  · rw [if_pos hk, if_pos hk.symm]
    rcases ss[(k : ℕ)].normpar with _ | p <;> rfl
  · rw [if_neg hk, if_neg (Ne.symm hk)]
    rcases ss[(k : ℕ)].normpar with _ | p <;> simp

end Conv
end Verif
