import Verif.Model.Sampler
import Verif.Lemmas.Sampling
/-!
# C31: toy generation
-/
namespace Verif.Props
open Verif Verif.Sampler

/-- The results of the successful ones among the first `m` attempts, in order. -/
def successes (r : ℕ → Except PyErr (Option ℝ)) (m : ℕ) : List ℝ :=
  (List.range m).filterMap (fun i => match r i with | .ok (some v) => some v | _ => none)

/-- Attempt `i` gave neither a value nor an exception. -/
def Failed (r : ℕ → Except PyErr (Option ℝ)) (i : ℕ) : Prop := r i = .ok none

theorem successes_add_failed (r : ℕ → Except PyErr (Option ℝ)) (i k : ℕ)
    (h : ∀ j, i ≤ j → j < i + k → Failed r j) : successes r (i + k) = successes r i := by
  induction k with
  | zero => rfl
  | succ k ih =>
    have h1 := ih (fun j h1 h2 => h j h1 (by omega))
    have h2 := h (i + k) (by omega) (by omega)
    unfold successes at *
    rw [← add_assoc, List.range_succ, List.filterMap_append, h1]
    simp [show r (i + k) = .ok none from h2]

theorem successes_succ (r : ℕ → Except PyErr (Option ℝ)) (i : ℕ) (v : ℝ) (h : r i = .ok (some v)) :
    successes r (i + 1) = successes r i ++ [v] := by
  unfold successes
  rw [List.range_succ, List.filterMap_append]
  simp [h]

theorem toy_ok (r : ℕ → Except PyErr (Option ℝ)) (mt fuel i nt : ℕ) (v : ℝ) (i' : ℕ) :
    toy r mt fuel i nt = some (.ok (v, i')) ↔
      ∃ k, k < fuel ∧ (∀ j, i ≤ j → j < i + k → Failed r j) ∧ r (i + k) = .ok (some v) ∧ i' = i + k + 1 := by
  induction fuel generalizing i nt with
  | zero => simp [toy]
  | succ fuel ih =>
    unfold toy
    cases hr : r i with
    | error e =>
      simp only [Option.some.injEq, reduceCtorEq, false_iff]
      rintro ⟨k, -, h1, h2, -⟩
      cases k with
      | zero => rw [add_zero, hr] at h2; cases h2
      | succ k => have := h1 i (le_refl _) (by omega); unfold Failed at this; rw [hr] at this; cases this
    | ok o =>
      cases o with
      | some w =>
        constructor
        · intro h
          have h := Option.some.inj h
          have h := Except.ok.inj (ε := PyErr) h
          obtain ⟨rfl, rfl⟩ := Prod.mk.inj h
          exact ⟨0, by omega, fun j h1 h2 => by omega, by simpa using hr, rfl⟩
        · rintro ⟨k, -, h1, h2, rfl⟩
          cases k with
          | zero => rw [add_zero, hr] at h2; cases h2; rfl
          | succ k => have := h1 i (le_refl _) (by omega); unfold Failed at this; rw [hr] at this; cases this
      | none =>
        have : (if nt + 1 < mt then toy r mt fuel (i + 1) (nt + 1) else toy r mt fuel (i + 1) (nt + 1)) =
            toy r mt fuel (i + 1) (nt + 1) := by split <;> rfl
        dsimp only
        rw [this, ih]
        constructor
        · rintro ⟨k, hk, h1, h2, rfl⟩
          refine ⟨k + 1, by omega, fun j hj1 hj2 => ?_, by rw [← h2]; congr 1; omega, by omega⟩
          rcases Nat.lt_or_ge i j with h | h
          · exact h1 j (by omega) (by omega)
          · have : j = i := by omega
            subst this; exact hr
        · rintro ⟨k, hk, h1, h2, rfl⟩
          cases k with
          | zero => rw [add_zero, hr] at h2; cases h2
          | succ k =>
            exact ⟨k, by omega, fun j hj1 hj2 => h1 j (by omega) (by omega),
              by rw [← h2]; congr 1; omega, by omega⟩

theorem toys_ok (r : ℕ → Except PyErr (Option ℝ)) (mt fuel todo k i : ℕ) (samples l : List ℝ)
    (hlen : samples.length = k + todo) (htake : samples.take k = successes r i)
    (h : toys r mt fuel todo k i samples = some (.ok l)) :
    ∃ m, l = successes r m ∧ l.length = k + todo := by
  induction todo generalizing k i samples with
  | zero =>
    have h := Except.ok.inj (ε := PyErr) (Option.some.inj h)
    subst h
    refine ⟨i, ?_, hlen⟩
    rw [← htake, List.take_of_length_le (by omega)]
  | succ todo ih =>
    unfold toys at h
    split at h
    · cases h
    · cases h
    · rename_i v i' ht
      obtain ⟨q, hq, hf, hv, rfl⟩ := (toy_ok r mt fuel i 0 v i').1 ht
      obtain ⟨m, h1, h2⟩ := ih (k + 1) (i + q + 1) (samples.set k v) (by simp; omega) (by
        rw [successes_succ r (i + q) v hv, successes_add_failed r i q hf, ← htake,
          List.take_succ, List.take_set_of_le (le_refl k)]
        simp [show k < samples.length by omega]) h
      exact ⟨m, h1, by omega⟩

/-- C31: whenever generation returns, it returns exactly the requested number of results, and they are the
results of the first successful attempts, in the order produced: no failed attempt leaves an entry. -/
theorem c31_returns_requested (r : ℕ → Except PyErr (Option ℝ)) (max_tries ntoys fuel : ℕ) (l : List ℝ)
    (h : generate r max_tries ntoys fuel = some (.ok l)) :
    l.length = ntoys ∧ ∃ m, l = successes r m := by
  obtain ⟨m, h1, h2⟩ := toys_ok r max_tries fuel ntoys 0 0 _ l (by simp [SampDist.init])
    (by simp [successes]) h
  exact ⟨by omega, m, h1⟩

theorem toy_indep (r : ℕ → Except PyErr (Option ℝ)) (mt mt' fuel i nt nt' : ℕ) :
    toy r mt fuel i nt = toy r mt' fuel i nt' := by
  induction fuel generalizing i nt nt' with
  | zero => rfl
  | succ fuel ih =>
    unfold toy
    split
    · rfl
    · rfl
    · split <;> split <;> exact ih _ _ _

/-- Finding: the allowed number of tries has no effect at all, whatever the attempts give. -/
theorem c31_max_tries_ignored (r : ℕ → Except PyErr (Option ℝ)) (mt mt' ntoys fuel : ℕ) :
    generate r mt ntoys fuel = generate r mt' ntoys fuel := by
  unfold generate
  generalize SampDist.init ntoys none = s
  have : ∀ todo k i s, toys r mt fuel todo k i s = toys r mt' fuel todo k i s := by
    intro todo
    induction todo with
    | zero => intros; rfl
    | succ todo ih =>
      intro k i s
      unfold toys
      rw [toy_indep r mt mt' fuel i 0 0]
      split
      · rfl
      · rfl
      · exact ih _ _ _
  exact this _ _ _ _

/-- Finding: if the computation always fails, generation of one or more toys never stops, whatever the
allowed number of tries. -/
theorem c31_failing_never_stops (r : ℕ → Except PyErr (Option ℝ)) (hr : ∀ i, Failed r i)
    (max_tries ntoys : ℕ) (hn : 0 < ntoys) (fuel : ℕ) : generate r max_tries ntoys fuel = none := by
  have ht : ∀ fuel i nt, toy r max_tries fuel i nt = none := by
    intro fuel
    induction fuel with
    | zero => intros; rfl
    | succ fuel ih =>
      intro i nt
      unfold toy
      rw [show r i = .ok none from hr i]
      dsimp only
      split <;> exact ih _ _
  obtain ⟨n, rfl⟩ : ∃ n, ntoys = n + 1 := ⟨ntoys - 1, by omega⟩
  simp only [generate, toys, ht]

/-- C31: generation does return if no attempt raises and every attempt is followed, within a bounded number
of attempts, by a successful one. -/
theorem c31_returns_if_successful (r : ℕ → Except PyErr (Option ℝ)) (max_tries ntoys b : ℕ)
    (hne : ∀ i e, r i ≠ .error e) (hb : ∀ i, ∃ j v, i ≤ j ∧ j < i + b ∧ r j = .ok (some v)) :
    ∃ l, generate r max_tries ntoys b = some (.ok l) := by
  have ht : ∀ i, ∃ v i', toy r max_tries b i 0 = some (.ok (v, i')) := by
    intro i
    obtain ⟨j, v, h1, h2, h3⟩ := hb i
    have hex : ∃ k, ∃ v, r (i + k) = .ok (some v) := ⟨j - i, v, by rw [← h3]; congr 1; omega⟩
    classical
    obtain ⟨w, hw⟩ := Nat.find_spec hex
    have hmin : Nat.find hex ≤ j - i := Nat.find_min' hex ⟨v, by rw [← h3]; congr 1; omega⟩
    refine ⟨w, _, (toy_ok r max_tries b i 0 w _).2 ⟨Nat.find hex, by omega, ?_, hw, rfl⟩⟩
    intro q hq1 hq2
    have := Nat.find_min hex (m := q - i) (by omega)
    rw [show i + (q - i) = q by omega] at this
    unfold Failed
    cases hq : r q with
    | error e => exact absurd hq (hne q e)
    | ok o => cases o with
      | none => rfl
      | some x => exact absurd ⟨x, hq⟩ this
  unfold generate
  generalize SampDist.init ntoys none = s
  have : ∀ todo k i s, ∃ l, toys r max_tries b todo k i s = some (.ok l) := by
    intro todo
    induction todo with
    | zero => intro k i s; exact ⟨s, rfl⟩
    | succ todo ih =>
      intro k i s
      obtain ⟨v, i', h⟩ := ht i
      obtain ⟨l, hl⟩ := ih (k + 1) i' (s.set k v)
      exact ⟨l, by simp only [toys, h]; exact hl⟩
  exact this _ _ _ _

/-- C31: an exception in one attempt that is reached ends generation with that exception: no partial
distribution is returned. -/
theorem c31_exception_propagates (r : ℕ → Except PyErr (Option ℝ)) (max_tries ntoys fuel : ℕ) (e : PyErr)
    (hn : 0 < ntoys) (hf : 0 < fuel) (h : r 0 = .error e) :
    generate r max_tries ntoys fuel = some (.error e) := by
  obtain ⟨n, rfl⟩ : ∃ n, ntoys = n + 1 := ⟨ntoys - 1, by omega⟩
  obtain ⟨f, rfl⟩ : ∃ f, fuel = f + 1 := ⟨fuel - 1, by omega⟩
  simp only [generate, toys, toy, h]

/-- Every second attempt fails: three toys are the results of attempts 1, 3 and 5. -/
example : generate (fun i => if i % 2 = 0 then .ok none else .ok (some (i : ℝ))) 20 3 2 =
    some (.ok [1, 3, 5]) := by
  norm_num [generate, toys, toy, SampDist.init, List.replicate]

end Verif.Props
