import Verif.Lemmas.Pieces
import Verif.Lemmas.DemoMerge
/-!
# C69: the likelihood of a model is the product of those of its channels
-/
namespace Verif.Props
open Verif Mdl
variable {n P : Nat} {m : Mdl n P} {A : Arrays}

theorem parts_split (parts : List (List Channel)) (i : Fin parts.length) :
    parts.flatten = (parts.take i).flatten ++ parts[i] ++ (parts.drop (i + 1)).flatten := by
  have h := congrArg List.flatten (List.take_append_drop i parts)
  rw [List.drop_eq_getElem_cons i.2, List.flatten_append, List.flatten_cons, ← List.append_assoc] at h
  exact h.symm

/-- **C69** Split the list of channels of a model in any way into consecutive parts.  Each part makes a model,
which predicts in its bins what the whole model predicts, for all POIs and NPs. -/
theorem c69_part_predictions (hvar : m.variations = none)
    (hs : ∀ ch ∈ m.channels, 0 < ch.nbins ∧ ∀ s ∈ ch.samples, s.Std ch.nbins)
    (hn : (m.channels.map (·.name)).Nodup) (hA : m.setInternal = .ok A) {parts : List (List Channel)}
    (hp : m.channels = parts.flatten) (i : Fin parts.length) :
    ∃ A', (m.withChannels parts[i]).setInternal = .ok A' ∧ ∀ x θ N, m.totBinExp A x θ = .ok N →
      ∃ N', (m.withChannels parts[i]).totBinExp A' x θ = .ok N' ∧
        ∀ b < (m.withChannels parts[i]).nbins, N' b = N (binsOf (parts.take i).flatten + b) := by
  have ho := setInternal_order hn hA
  have hl := hp.trans (parts_split parts i)
  obtain ⟨A', hA'⟩ := part_set hvar hs ho hl
  exact ⟨A', hA', fun x θ N hN => by
    obtain ⟨N', h1, h2⟩ := part_tot hvar hs hA hl hA' hN
    exact ⟨N', h1, fun b hb => h2 b (by rwa [nbins_eq_sum] at hb)⟩⟩

/-- **C69** The NLL of a model on a dataset is the sum of the NLLs of its parts on their bins, one of them (the
first one) with the constraint terms and the others without: for all POIs and NPs and all data, with or
without offset and floor, wherever the yields of the Poisson bins (and, with offset, the reference yields)
are positive. -/
theorem c69_likelihood (hvar : m.variations = none)
    (hs : ∀ ch ∈ m.channels, 0 < ch.nbins ∧ ∀ s ∈ ch.samples, s.Std ch.nbins)
    (hn : (m.channels.map (·.name)).Nodup) (hA : m.setInternal = .ok A) {parts : List (List Channel)}
    (hp : m.channels = parts.flatten) (hne : parts ≠ []) {x : Fin n → ℝ} {θ : Fin P → ℝ} {N N0 : Nat → ℝ}
    {floor : Option ℝ} (hN : m.totBinExp A x θ floor = .ok N) (hpos : ∀ b < m.nbinsPoisson, 0 < N b)
    (h0 : m.refTot A = .ok N0) (hpos0 : ∀ b < m.nbinsPoisson, 0 < N0 b) (d : DataV P) (offset nc : Bool) :
    ∃ v : Fin parts.length → ℝ,
      (∀ i : Fin parts.length, ∃ A', (m.withChannels parts[i]).setInternal = .ok A' ∧
        (m.withChannels parts[i]).nll A' x θ (d.from (binsOf (parts.take i).flatten)) offset floor
          (if i.val = 0 then nc else true) = .ok (.fin (v i))) ∧
      m.nll A x θ d offset floor nc = .ok (.fin (∑ i, v i)) := by
  have ho := setInternal_order hn hA
  obtain ⟨N1, hN1⟩ : ∃ N1, m.totBinExp A x θ = .ok N1 := by
    simp only [totBinExp] at hN
    obtain ⟨ne, h1, -⟩ := bind_eq_ok.1 hN
    exact ⟨_, totBinExp_of_nExp h1⟩
  rw [tot_floor hN1 floor] at hN
  obtain rfl := Except.ok.inj (ε := PyErr) hN
  have hq : OnPoisson m.channels fun b => 0 < floorOf floor (N1 b) := by
    refine (onPoisson_iff ho _).2 fun b hb => ?_
    have := hpos b hb
    dsimp only at this
    rwa [if_pos hb] at this
  have hq0 : offset = true → OnPoisson m.channels fun b => 0 < N0 b := fun _ => (onPoisson_iff ho _).2 hpos0
  refine ⟨fun i : Fin parts.length => blockSum parts[i]
      (fun b => termP offset floor (N1 (binsOf (parts.take i).flatten + b)) (N0 (binsOf (parts.take i).flatten + b))
        (d.counts (binsOf (parts.take i).flatten + b)))
      (fun b => termU offset (N1 (binsOf (parts.take i).flatten + b)) (N0 (binsOf (parts.take i).flatten + b))
        (d.counts (binsOf (parts.take i).flatten + b)))
      (fun b => termV offset (N1 (binsOf (parts.take i).flatten + b)) (N0 (binsOf (parts.take i).flatten + b))
        (d.counts (binsOf (parts.take i).flatten + b))) +
      if (if i.val = 0 then nc else true) then 0 else m.constraintTerm θ d, fun i => ?_, ?_⟩
  · have hl := hp.trans (parts_split parts i)
    obtain ⟨A', hA'⟩ := part_set hvar hs ho hl
    exact ⟨A', hA', nll_part hvar hs ho hA hl hA' hN1 h0 d offset floor _ hq hq0⟩
  · rw [nll_blocks ho hN1 h0 d offset floor nc hq hq0, Finset.sum_add_distrib, hp, blockSum_parts]
    congr 3
    obtain ⟨a, parts, rfl⟩ := List.exists_cons_of_ne_nil hne
    have := Fin.sum_univ_succ (n := parts.length) (fun i : Fin (parts.length + 1) =>
      if (if i.val = 0 then nc else true) then 0 else m.constraintTerm θ d)
    refine Eq.trans ?_ this.symm
    simp

/-- **C69** In particular the likelihood is the product of those of the channels. -/
theorem c69_channels (hvar : m.variations = none)
    (hs : ∀ ch ∈ m.channels, 0 < ch.nbins ∧ ∀ s ∈ ch.samples, s.Std ch.nbins)
    (hn : (m.channels.map (·.name)).Nodup) (hA : m.setInternal = .ok A) (hne : m.channels ≠ [])
    {x : Fin n → ℝ} {θ : Fin P → ℝ} {N N0 : Nat → ℝ}
    (hN : m.totBinExp A x θ = .ok N) (hpos : ∀ b < m.nbinsPoisson, 0 < N b)
    (h0 : m.refTot A = .ok N0) (hpos0 : ∀ b < m.nbinsPoisson, 0 < N0 b) (d : DataV P) :
    ∃ v : Fin m.channels.length → ℝ,
      (∀ (k : Fin m.channels.length) o, m.offsets.get? m.channels[k].name = some o →
        ∃ A', (m.withChannels [m.channels[k]]).setInternal = .ok A' ∧
          (m.withChannels [m.channels[k]]).nll A' x θ (d.from o) (noConstraints := true) = .ok (.fin (v k))) ∧
      m.nll A x θ d (noConstraints := true) = .ok (.fin (∑ k, v k)) := by
  obtain ⟨v, h1, h2⟩ := c69_likelihood hvar hs hn hA (parts := m.channels.map fun c => [c])
    (by induction m.channels with
      | nil => rfl
      | cons a l ih => simp [← ih]) (by simpa using hne) hN hpos h0 hpos0 d true true
  have hlen : (m.channels.map fun c => [c]).length = m.channels.length := by simp
  refine ⟨fun k => v (Fin.cast hlen.symm k), fun k o ho => ?_, ?_⟩
  · obtain ⟨A', e1, e2⟩ := h1 (Fin.cast hlen.symm k)
    have e3 : (m.channels.map fun c => [c])[Fin.cast hlen.symm k] = [m.channels[k]] := by simp
    have e4 : binsOf ((m.channels.map fun c => [c]).take (Fin.cast hlen.symm k)).flatten = o := by
      have hk : m.channels = m.channels.take k ++ m.channels[k] :: m.channels.drop (k + 1) := by
        simp
      have := offset_eq hn hk
      rw [this] at ho
      have ho := Option.some.inj ho
      rw [← ho, ← List.map_take]
      simp only [Fin.val_cast]
      have : ∀ l : List Channel, (l.map fun c => [c]).flatten = l := fun l => by
        induction l with
        | nil => rfl
        | cons a l ih => simp [ih]
      rw [this]; rfl
    rw [e3] at e1 e2
    rw [e4] at e2
    refine ⟨A', e1, ?_⟩
    simpa using e2
  · rw [h2]
    congr 2
    exact (Equiv.sum_comp (finCongr hlen.symm) v).symm

/-- Yields of a sample with positive normalisation. -/
theorem sampleYield_pos {m : Mdl n P} (hc : m.cutoff = 0) (hl : m.use_linear_nps = false) {vals : Dict ℝ}
    {θ : Fin P → ℝ} {smp : Sample} {b : Nat} (h1 : 0 < normVal vals smp.norm) (h2 : 0 < smp.nominal_norm)
    (h3 : 0 < smp.nominal_yields.getD b 0) : 0 < m.sampleYield vals θ smp b := by
  unfold sampleYield cutOf combine
  rw [if_pos hc, hl]
  simp only [Bool.false_eq_true, if_false]
  exact mul_pos (mul_pos (div_pos h1 h2) h3) (Real.exp_pos _)

/-- The hypotheses hold for a model with three channels (one of them with two bins) and an NP, in parts of one
and two channels, at all values of the NP. -/
example : ∃ A N0, DemoMerge.mdl.variations = none ∧
    (∀ ch ∈ DemoMerge.mdl.channels, 0 < ch.nbins ∧ ∀ s ∈ ch.samples, s.Std ch.nbins) ∧
    (DemoMerge.mdl.channels.map (·.name)).Nodup ∧ DemoMerge.mdl.setInternal = .ok A ∧
    DemoMerge.mdl.channels = [[DemoMerge.chA], [DemoMerge.chZ, DemoMerge.chB]].flatten ∧
    DemoMerge.mdl.nbinsPoisson = 4 ∧
    DemoMerge.mdl.refTot A = .ok N0 ∧ (∀ b < DemoMerge.mdl.nbinsPoisson, 0 < N0 b) ∧
    ∀ θ, ∃ N, DemoMerge.mdl.totBinExp A (fun _ => 2) θ = .ok N ∧ ∀ b < DemoMerge.mdl.nbinsPoisson, 0 < N b := by
  obtain ⟨A, N0, hA, h0⟩ := DemoMerge.setup
  have hu := uniform_of_std (m := DemoMerge.mdl) rfl DemoMerge.std
  have hnP : DemoMerge.mdl.nbinsPoisson = 4 := by
    simp [nbinsPoisson, DemoMerge.mdl, DemoMerge.chA, DemoMerge.chZ, DemoMerge.chB]
  have hpos : ∀ (x : Fin 1 → ℝ) θ N, 0 < x 0 → DemoMerge.mdl.totBinExp A x θ = .ok N →
      ∀ b < DemoMerge.mdl.nbinsPoisson, 0 < N b := by
    intro x θ N hx hN b hb
    have hv := DemoMerge.vals x
    have hnm : normVal [("mu", x 0), ("np", 0)] (.expr "mu") = x 0 := by
      simp [normVal, Expr.look, Dict.get?_cons]
    have hY : ∀ smp b, 0 < normVal [("mu", x 0), ("np", 0)] smp.norm → 0 < smp.nominal_norm →
        0 < smp.nominal_yields.getD b 0 → 0 < DemoMerge.mdl.sampleYield [("mu", x 0), ("np", 0)] θ smp b :=
      fun smp b => sampleYield_pos rfl rfl
    rw [hnP] at hb
    have hA1 : (0 : ℝ) < N (0 + 0) := by
      have := tot_at hu hA hN hv (pre := []) (ch := DemoMerge.chA) (post := [DemoMerge.chZ, DemoMerge.chB]) rfl (b := 0) (by norm_num [DemoMerge.chA])
      rw [show (List.map (fun x => x.nbins) ([] : List Channel)).sum + 0 = 0 + 0 from rfl] at this
      rw [this]
      simp only [DemoMerge.chA, List.map_cons, List.map_nil, List.sum_cons, List.sum_nil, add_zero]
      exact hY _ _ (by rw [hnm]; exact hx) (by norm_num) (by norm_num)
    have hZ : ∀ b < 2, (0 : ℝ) < N (1 + b) := by
      intro b hb
      have := tot_at hu hA hN hv (pre := [DemoMerge.chA]) (ch := DemoMerge.chZ) (post := [DemoMerge.chB]) rfl (b := b) hb
      rw [show (List.map (fun x => x.nbins) [DemoMerge.chA]).sum = 1 from rfl] at this
      rw [this]
      simp only [DemoMerge.chZ, List.map_cons, List.map_nil, List.sum_cons, List.sum_nil, add_zero]
      refine hY _ _ (by rw [hnm]; exact hx) (by norm_num) ?_
      interval_cases b <;> norm_num
    have hB : (0 : ℝ) < N 3 := by
      have := tot_at hu hA hN hv (pre := [DemoMerge.chA, DemoMerge.chZ]) (ch := DemoMerge.chB) (post := []) rfl (b := 0) (by norm_num [DemoMerge.chB])
      rw [show (List.map (fun x => x.nbins) [DemoMerge.chA, DemoMerge.chZ]).sum + 0 = 3 from rfl] at this
      rw [this]
      simp only [DemoMerge.chB, List.map_cons, List.map_nil, List.sum_cons, List.sum_nil, add_zero]
      refine add_pos (hY _ _ (by rw [hnm]; exact hx) (by norm_num) (by norm_num)) (hY _ _ (by simp [normVal]) (by norm_num) (by norm_num))
    interval_cases b
    · exact hA1
    · exact hZ 0 (by norm_num)
    · exact hZ 1 (by norm_num)
    · exact hB
  refine ⟨A, N0, rfl, DemoMerge.std, by simp [DemoMerge.mdl, DemoMerge.chA, DemoMerge.chZ, DemoMerge.chB], hA, rfl, hnP, h0,
    hpos _ _ _ (by simp [DemoMerge.mdl]) h0, fun θ => ?_⟩
  obtain ⟨_, -, hc, -⟩ := tot_inv h0
  have hc' : DemoMerge.mdl.Computable [("mu", 2), ("np", 0)] := ⟨hc.shape, hc.norm0, fun ch h smp hm => by
    have := DemoMerge.std ch h
    simp only [DemoMerge.mdl, List.mem_cons, List.not_mem_nil, or_false] at h
    rcases h with rfl | rfl | rfl <;>
      simp only [DemoMerge.chA, DemoMerge.chZ, DemoMerge.chB, List.mem_cons, List.not_mem_nil, or_false] at hm
    · subst hm; exact ⟨2, by simp [Norm.value, Dict.getItem, Dict.get?_cons]⟩
    · subst hm; exact ⟨2, by simp [Norm.value, Dict.getItem, Dict.get?_cons]⟩
    · rcases hm with rfl | rfl
      · exact ⟨2, by simp [Norm.value, Dict.getItem, Dict.get?_cons]⟩
      · exact ⟨1, by simp [Norm.value]⟩⟩
  have := tot_ok A θ (x := fun _ => 2) (DemoMerge.vals _) hc'
  exact ⟨_, this, hpos _ _ _ (by norm_num) this⟩

end Verif.Props
