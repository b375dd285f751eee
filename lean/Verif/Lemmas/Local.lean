import Verif.Lemmas.Yields
/-!
The correction factor of a sample in a bin, computed from the sample alone: it depends on the rest of
the model only through the options and the list of NPs.
-/
namespace Verif

/-- The term of one NP in the exponent (or the linear sum) of the correction factor of a sample. -/
noncomputable def Sample.term (smp : Sample) (asym linear : Bool) (variations : Option (List ℝ))
    (par : String) (b : Nat) (t : ℝ) : ℝ :=
  if asym then
    match smp.impactCoefficients par variations (!linear) with
    | .ok c => (∑ v ∈ Finset.range c.npos, (c.pos.getD b []).getD v 0 * (max t 0) ^ (v + 1)) +
        ∑ v ∈ Finset.range c.npos, (c.neg.getD b []).getD v 0 * (min t 0) ^ (v + 1)
    | .error _ => 0
  else
    match smp.symImpact par with
    | .ok r => if linear then r.getD b 0 * t else Real.log (1 + r.getD b 0) * t
    | .error _ => 0

theorem Sample.term_zero (smp : Sample) (asym linear : Bool) (variations : Option (List ℝ))
    (par : String) (b : Nat) : smp.term asym linear variations par b 0 = 0 := by
  unfold Sample.term
  split_ifs <;> split <;> simp

/-- From the sum of the terms to the factor. -/
noncomputable def combine (linear : Bool) (d : ℝ) : ℝ := if linear then 1 + d else Real.exp d

open Classical in
/-- The smooth cutoff. -/
noncomputable def cutOf (cutoff k : ℝ) : ℝ :=
  if cutoff = 0 then k else 1 + cutoff * Real.tanh ((k - 1) / cutoff)

namespace Mdl
variable {n P : Nat}

theorem cutKExp_eq (m : Mdl n P) (A : Arrays) (θ : Fin P → ℝ) (s b : Nat) :
    m.cutKExp A θ s b = cutOf m.cutoff (m.kExp A θ s b) := rfl

/-- A row of a stacked array at a bin of a channel. -/
theorem stackRows_at {α : Type} [Zero α] {m : Mdl n P} {f : Sample → Except PyErr (List α)}
    (hf : ∀ ch ∈ m.channels, ∀ smp ∈ ch.samples, ∀ r, f smp = .ok r → r.length = ch.nbins)
    {rows} (h : m.stackRows f = .ok rows)
    {pre post : List Channel} {ch : Channel} (hch : m.channels = pre ++ ch :: post) {s : Nat}
    {smp : Sample} (hs : ch.samples[s]? = some smp) :
    ∃ r, f smp = .ok r ∧ ∀ b < ch.nbins,
      (rows.getD s []).getD ((pre.map (·.nbins)).sum + b) 0 = r.getD b 0 := by
  have hmem : ch ∈ m.channels := by rw [hch]; simp
  have hlt : s < m.maxSamples := lt_of_lt_of_le (List.getElem?_eq_some_iff.1 hs).1 (m.samples_le hmem)
  obtain ⟨_, hg⟩ := Sample.mapM_getD (d := []) h
  have h1 := hg s (by simpa using hlt)
  rw [List.getElem_range] at h1
  obtain ⟨parts, hp, h2⟩ := bind_eq_ok.1 h1
  split_ifs at h2 with h0
  · cases h2
  have h2 := Except.ok.inj h2
  have hF := mapM_ok_iff.1 hp
  rw [hch] at hF
  obtain ⟨p1, p2, hp1, hp2, rfl⟩ := forall₂_append_left hF
  cases hp2 with
  | @cons _ r _ p2 hr hp2 =>
  have hr' : f smp = .ok r := by simpa only [Channel.part, hs] using hr
  have hlen : ∀ (l : List Channel) (pl : List (List α)), (∀ x ∈ l, x ∈ m.channels) →
      List.Forall₂ (fun a b => a.part s f = .ok b) l pl → pl.flatten.length = (l.map (·.nbins)).sum := by
    intro l pl hx hl
    induction hl with
    | nil => simp
    | @cons a r l pl h1 _ ih =>
      have := ih (fun x hx' => hx x (by simp [hx']))
      have hc : r.length = a.nbins := by
        unfold Channel.part at h1
        cases hs' : a.samples[s]? with
        | none => rw [hs'] at h1; rw [← Except.ok.inj h1]; simp
        | some smp' =>
          rw [hs'] at h1
          exact hf a (hx a (by simp)) smp' (List.mem_of_getElem? hs') r h1
      simp [hc, this]
  refine ⟨r, hr', fun b hb => ?_⟩
  rw [← h2]
  exact flatten_getD_mid _ _ _ _ _ _ (hlen pre p1 (fun x hx => by rw [hch]; simp [hx]) hp1)
    (by rw [hf ch hmem smp (List.mem_of_getElem? hs) r hr']; exact hb)

/-- A row of a stacked array at a bin of a channel without that sample. -/
theorem stackRows_absent {α : Type} [Zero α] {m : Mdl n P} {f : Sample → Except PyErr (List α)}
    (hf : ∀ ch ∈ m.channels, ∀ smp ∈ ch.samples, ∀ r, f smp = .ok r → r.length = ch.nbins)
    {rows} (h : m.stackRows f = .ok rows)
    {pre post : List Channel} {ch : Channel} (hch : m.channels = pre ++ ch :: post) {s : Nat}
    (hlt : s < m.maxSamples) (hs : ch.samples[s]? = none) {b : Nat} (hb : b < ch.nbins) :
    (rows.getD s []).getD ((pre.map (·.nbins)).sum + b) 0 = 0 := by
  obtain ⟨_, hg⟩ := Sample.mapM_getD (d := []) h
  have h1 := hg s (by simpa using hlt)
  rw [List.getElem_range] at h1
  obtain ⟨parts, hp, h2⟩ := bind_eq_ok.1 h1
  split_ifs at h2 with h0
  · cases h2
  have h2 := Except.ok.inj h2
  have hF := mapM_ok_iff.1 hp
  rw [hch] at hF
  obtain ⟨p1, p2, hp1, hp2, rfl⟩ := forall₂_append_left hF
  cases hp2 with
  | @cons _ r _ p2 hr hp2 =>
  have hr' : r = List.replicate ch.nbins 0 := by
    simp only [Channel.part, hs] at hr
    exact (Except.ok.inj hr).symm
  have hlen : ∀ (l : List Channel) (pl : List (List α)), (∀ x ∈ l, x ∈ m.channels) →
      List.Forall₂ (fun a b => a.part s f = .ok b) l pl → pl.flatten.length = (l.map (·.nbins)).sum := by
    intro l pl hx hl
    induction hl with
    | nil => simp
    | @cons a r l pl h1 _ ih =>
      have := ih (fun x hx' => hx x (by simp [hx']))
      have hc : r.length = a.nbins := by
        unfold Channel.part at h1
        cases hs' : a.samples[s]? with
        | none => rw [hs'] at h1; rw [← Except.ok.inj h1]; simp
        | some smp' =>
          rw [hs'] at h1
          exact hf a (hx a (by simp)) smp' (List.mem_of_getElem? hs') r h1
      simp [hc, this]
  rw [← h2]
  rw [flatten_getD_mid _ _ _ _ _ _ (hlen pre p1 (fun x hx => by rw [hch]; simp [hx]) hp1)
    (by rw [hr']; simpa using hb), hr', List.getD_eq_getElem _ _ (by simpa using hb)]
  simp

theorem symImpact_length {smp : Sample} {nb : Nat} (hw : smp.WellShaped nb) {par : String} {r : List ℝ}
    (h : smp.symImpact par = .ok r) : r.length = nb := by
  unfold Sample.symImpact at h
  cases h1 : smp.impact par 1 with
  | error e => rw [h1] at h; cases h
  | ok a =>
    cases h2 : smp.impact par (-1) with
    | error e =>
      rw [h1, h2] at h
      rw [← Except.ok.inj h]; exact Sample.impact_length hw h1
    | ok b =>
      rw [h1, h2] at h
      rw [← Except.ok.inj h]
      simp [Sample.impact_length hw h1, Sample.impact_length hw h2]

/-- Content of the array of symmetrised impacts. -/
theorem setInternal_sym {m : Mdl n P}
    (hw : ∀ ch ∈ m.channels, ∀ smp ∈ ch.samples, smp.WellShaped ch.nbins)
    {A : Arrays} (h : m.setInternal = .ok A) {pre post : List Channel} {ch : Channel}
    (hch : m.channels = pre ++ ch :: post) {s : Nat} {smp : Sample} (hs : ch.samples[s]? = some smp)
    (p : Fin P) : ∃ r, smp.symImpact (m.nps p).name = .ok r ∧ ∀ b < ch.nbins,
      A.sym s ((pre.map (·.nbins)).sum + b) p = r.getD b 0 := by
  have key : ∀ syms : List (List (List ℝ)),
      (List.finRange P).mapM (fun p => m.stackRows (fun s => s.symImpact (m.nps p).name)) = .ok syms →
      (A.sym = fun s b p => ((syms.getD p []).getD s []).getD b 0) →
      ∃ r, smp.symImpact (m.nps p).name = .ok r ∧ ∀ b < ch.nbins,
        A.sym s ((pre.map (·.nbins)).sum + b) p = r.getD b 0 := by
    intro syms hsym hA
    obtain ⟨_, hg⟩ := Sample.mapM_getD (d := []) hsym
    have h1 := hg p (by simp)
    rw [List.getElem_finRange] at h1
    obtain ⟨r, hr, hb⟩ := stackRows_at (fun c hc s' hs' r hr => symImpact_length (hw c hc s' hs') hr) h1 hch hs
    refine ⟨r, by simpa using hr, fun b hlt => ?_⟩
    rw [← hb b hlt, hA]
  unfold setInternal at h
  simp only at h
  by_cases h0 : (m.channels.filter (fun c => !c.gaussian) ++
      m.channels.filter (fun c => c.gaussian)).map (·.name) ≠ m.channels.map (·.name)
  · rw [if_pos h0] at h; cases h
  rw [if_neg h0] at h
  by_cases ha : m.use_asym_impacts = true
  · simp only [pure_ok, bind_ok, ha, if_true] at h
    obtain ⟨buf, _, h1⟩ := bind_eq_ok.1 h
    obtain ⟨syms, hsym, h2⟩ := bind_eq_ok.1 h1
    exact key syms hsym (by rw [← Except.ok.inj h2])
  · simp only [pure_ok, bind_ok, ha, if_false, Bool.false_eq_true] at h
    obtain ⟨syms, hsym, h2⟩ := bind_eq_ok.1 h
    exact key syms hsym (by rw [← Except.ok.inj h2])

/-- The array of symmetrised impacts where a channel has no such sample. -/
theorem setInternal_sym_absent {m : Mdl n P}
    (hw : ∀ ch ∈ m.channels, ∀ smp ∈ ch.samples, smp.WellShaped ch.nbins)
    {A : Arrays} (h : m.setInternal = .ok A) {pre post : List Channel} {ch : Channel}
    (hch : m.channels = pre ++ ch :: post) {s : Nat} (hlt : s < m.maxSamples) (hs : ch.samples[s]? = none)
    (p : Fin P) {b : Nat} (hb : b < ch.nbins) : A.sym s ((pre.map (·.nbins)).sum + b) p = 0 := by
  have key : ∀ syms : List (List (List ℝ)),
      (List.finRange P).mapM (fun p => m.stackRows (fun s => s.symImpact (m.nps p).name)) = .ok syms →
      (A.sym = fun s b p => ((syms.getD p []).getD s []).getD b 0) →
      A.sym s ((pre.map (·.nbins)).sum + b) p = 0 := by
    intro syms hsym hA
    obtain ⟨_, hg⟩ := Sample.mapM_getD (d := []) hsym
    have h1 := hg p (by simp)
    rw [List.getElem_finRange] at h1
    rw [hA]
    exact stackRows_absent (fun c hc s' hs' r hr => symImpact_length (hw c hc s' hs') hr) h1 hch hlt hs hb
  unfold setInternal at h
  simp only at h
  by_cases h0 : (m.channels.filter (fun c => !c.gaussian) ++
      m.channels.filter (fun c => c.gaussian)).map (·.name) ≠ m.channels.map (·.name)
  · rw [if_pos h0] at h; cases h
  rw [if_neg h0] at h
  by_cases ha : m.use_asym_impacts = true
  · simp only [pure_ok, bind_ok, ha, if_true] at h
    obtain ⟨buf, _, h1⟩ := bind_eq_ok.1 h
    obtain ⟨syms, hsym, h2⟩ := bind_eq_ok.1 h1
    exact key syms hsym (by rw [← Except.ok.inj h2])
  · simp only [pure_ok, bind_ok, ha, if_false, Bool.false_eq_true] at h
    obtain ⟨syms, hsym, h2⟩ := bind_eq_ok.1 h
    exact key syms hsym (by rw [← Except.ok.inj h2])

/-- The correction factor of a sample in a bin of its channel. -/
theorem kExp_local {m : Mdl n P} {w : Nat} (hu : m.Uniform w) {A : Arrays} (h : m.setInternal = .ok A)
    {pre post : List Channel} {ch : Channel} (hch : m.channels = pre ++ ch :: post) {s : Nat}
    {smp : Sample} (hs : ch.samples[s]? = some smp) {b : Nat} (hb : b < ch.nbins) (θ : Fin P → ℝ) :
    m.kExp A θ s ((pre.map (·.nbins)).sum + b) = combine m.use_linear_nps
      (∑ p, smp.term m.use_asym_impacts m.use_linear_nps m.variations (m.nps p).name b (θ p)) := by
  have hmem : ch ∈ m.channels := by rw [hch]; simp
  have hus := hu ch hmem smp (List.mem_of_getElem? hs)
  by_cases ha : m.use_asym_impacts = true
  · have hd : m.delta A θ s ((pre.map (·.nbins)).sum + b) =
        ∑ p, smp.term m.use_asym_impacts m.use_linear_nps m.variations (m.nps p).name b (θ p) := by
      unfold delta
      rw [← Finset.sum_add_distrib]
      refine Finset.sum_congr rfl fun p _ => ?_
      obtain ⟨c, hc, hnv, hval⟩ := setInternal_coeffs hu ha h hch hs p
      have hsp := Sample.impactCoefficients_spec hus.1 (hus.2 p).1 (hus.2 p).2 hc
      simp only [Sample.term, ha, if_true, hc, hnv, hsp.2.1]
      congr 1
      · exact Finset.sum_congr rfl fun v hv => by rw [(hval b hb v (Finset.mem_range.1 hv)).1]
      · exact Finset.sum_congr rfl fun v hv => by rw [(hval b hb v (Finset.mem_range.1 hv)).2]
    simp only [kExp, ha, if_true] at hd ⊢
    rw [hd]; rfl
  · have ha' : m.use_asym_impacts = false := by simpa using ha
    have hv : ∀ p, ∃ r, smp.symImpact (m.nps p).name = .ok r ∧
        A.sym s ((pre.map (·.nbins)).sum + b) p = r.getD b 0 := fun p => by
      obtain ⟨r, h1, h2⟩ := setInternal_sym (fun c hc s' hs' => (hu c hc s' hs').1) h hch hs p
      exact ⟨r, h1, h2 b hb⟩
    by_cases hl : m.use_linear_nps = true
    · simp only [kExp, ha', hl, if_true, combine, Bool.false_eq_true, if_false]
      congr 1
      refine Finset.sum_congr rfl fun p _ => ?_
      obtain ⟨r, h1, h2⟩ := hv p
      rw [h2, Sample.term]
      simp [h1]
    · have hl' : m.use_linear_nps = false := by simpa using hl
      simp only [kExp, ha', hl', combine, Bool.false_eq_true, if_false]
      congr 1
      refine Finset.sum_congr rfl fun p _ => ?_
      obtain ⟨r, h1, h2⟩ := hv p
      rw [h2, Sample.term]
      simp [h1]

theorem uniform_shaped {m : Mdl n P} {w : Nat} (hu : m.Uniform w) : m.YieldsShaped :=
  fun ch hc smp hs => (hu ch hc smp hs).1.1

/-- The expected yield of a sample in a bin of its channel, in terms of the sample alone. -/
theorem nExp_local {m : Mdl n P} {w : Nat} (hu : m.Uniform w) {A : Arrays} (hA : m.setInternal = .ok A)
    {x : Fin n → ℝ} {θ : Fin P → ℝ} {ne vals} (h : m.nExp A x θ = .ok ne)
    (hv : m.ctx.realVals x = .ok vals)
    {pre post : List Channel} {ch : Channel} (hch : m.channels = pre ++ ch :: post) {s : Nat}
    {smp : Sample} (hs : ch.samples[s]? = some smp) {b : Nat} (hb : b < ch.nbins) {v : ℝ}
    (hnv : smp.norm.value vals = .ok v) :
    ne s ((pre.map (·.nbins)).sum + b) = v / smp.nominal_norm * smp.nominal_yields.getD b 0 *
      cutOf m.cutoff (combine m.use_linear_nps
      (∑ p, smp.term m.use_asym_impacts m.use_linear_nps m.variations (m.nps p).name b (θ p))) := by
  rw [nExp_at (uniform_shaped hu) h hv hch hs hb hnv, cutKExp_eq, kExp_local hu hA hch hs hb]

end Mdl
end Verif
