import Verif.Lemmas.Merge
/-!
# Predictions of a model with merged channels
-/
namespace Verif
open Merge Mdl

/-! ### Order of the channels -/

theorem eq_of_same_names {l l' : List Channel} (hn : (l.map (·.name)).Nodup) (hp : l'.Perm l)
    (h : l'.map (·.name) = l.map (·.name)) : l' = l := by
  refine List.ext_getElem (by simpa using congrArg List.length h) fun i h1 h2 => ?_
  have h3 : (l'.map (·.name))[i]'(by simpa using h1) = (l.map (·.name))[i]'(by simpa using h2) := by
    simp only [h]
  simp only [List.getElem_map] at h3
  have m1 := find_of_nodup hn (hp.mem_iff.1 (List.getElem_mem h1))
  have m2 := find_of_nodup hn (List.getElem_mem h2)
  rw [h3, m2] at m1
  exact (Option.some.inj m1).symm

/-- No Poisson channel after a Gaussian one. -/
def PoissonFirst (l : List Channel) : Prop :=
  (l.map (·.gaussian)).Pairwise (fun a b => a = true → b = true)

theorem poissonFirst_iff (l : List Channel) :
    PoissonFirst l ↔ l.filter (fun c => !c.gaussian) ++ l.filter (fun c => c.gaussian) = l := by
  constructor
  · intro h
    induction l with
    | nil => rfl
    | cons a l ih =>
      unfold PoissonFirst at h
      rw [List.map_cons, List.pairwise_cons] at h
      by_cases ha : a.gaussian = true
      · have : ∀ c ∈ l, c.gaussian = true := fun c hc => h.1 _ (List.mem_map.2 ⟨c, hc, rfl⟩) ha
        rw [List.filter_cons_of_neg (by simp [ha]), List.filter_cons_of_pos ha,
          List.filter_eq_nil_iff.2 (fun c hc => by simp [this c hc]), List.filter_eq_self.2 this]
        rfl
      · rw [List.filter_cons_of_pos (by simpa using ha), List.filter_cons_of_neg ha, List.cons_append,
          ih h.2]
  · intro h
    rw [← h]
    unfold PoissonFirst
    rw [List.map_append, List.pairwise_append]
    refine ⟨?_, ?_, ?_⟩
    · rw [List.pairwise_map]
      refine List.Pairwise.imp_of_mem (R := fun _ _ => True) (fun {a b} ha _ _ => ?_) (List.pairwise_of_forall fun _ _ => trivial)
      simp only [List.mem_filter] at ha
      intro h1; rw [h1] at ha; simp at ha
    · rw [List.pairwise_map]
      refine List.Pairwise.imp_of_mem (R := fun _ _ => True) (fun {a b} _ hb _ => ?_) (List.pairwise_of_forall fun _ _ => trivial)
      simp only [List.mem_filter] at hb
      exact fun _ => hb.2
    · intro a _ b hb _
      obtain ⟨c, hc, rfl⟩ := List.mem_map.1 hb
      exact (List.mem_filter.1 hc).2

theorem setInternal_order {n P : Nat} {m : Mdl n P} (hn : (m.channels.map (·.name)).Nodup) {A : Arrays}
    (h : m.setInternal = .ok A) : PoissonFirst m.channels := by
  rw [poissonFirst_iff]
  refine eq_of_same_names hn ?_ ?_
  · have := List.filter_append_perm (fun c : Channel => !c.gaussian) m.channels
    simpa using this
  · unfold setInternal at h
    simp only at h
    by_contra h0
    rw [if_pos h0] at h
    cases h

/-! ### Setting up -/

theorem uniform_of_std {n P : Nat} {m : Mdl n P} (hvar : m.variations = none)
    (h : ∀ ch ∈ m.channels, 0 < ch.nbins ∧ ∀ s ∈ ch.samples, s.Std ch.nbins) : m.Uniform 1 := by
  intro ch hc s hs
  obtain ⟨h1, h2⟩ := h ch hc
  refine ⟨(h2 s hs).wellShaped, fun p => ?_⟩
  rw [hvar, (h2 s hs).posVars h1, (h2 s hs).negVars h1]
  exact ⟨rfl, rfl⟩

theorem setInternal_of_std {n P : Nat} {m : Mdl n P} (hvar : m.variations = none)
    (h : ∀ ch ∈ m.channels, 0 < ch.nbins ∧ ∀ s ∈ ch.samples, s.Std ch.nbins) (ho : PoissonFirst m.channels) :
    ∃ A, m.setInternal = .ok A := by
  refine m.setInternal_ok (uniform_of_std hvar h) ((poissonFirst_iff _).1 ho) hvar fun ch hc s hs p v hv => ?_
  obtain ⟨h1, h2⟩ := h ch hc
  refine ⟨_, (h2 s hs).impact _ ?_⟩
  rcases hv with rfl | hv
  · exact .inl rfl
  · have := ((h2 s hs).available h1 _).mem_iff.1 hv
    simpa using this

/-! ### Totals -/

theorem tot_at {n P : Nat} {m : Mdl n P} {w : Nat} (hu : m.Uniform w) {A : Arrays} (hA : m.setInternal = .ok A)
    {x : Fin n → ℝ} {θ : Fin P → ℝ} {N vals} (h : m.totBinExp A x θ = .ok N)
    (hv : m.ctx.realVals x = .ok vals) {pre post : List Channel} {ch : Channel}
    (hch : m.channels = pre ++ ch :: post) {b : Nat}
    (hb : b < ch.nbins) : N ((pre.map (·.nbins)).sum + b) = (ch.samples.map fun smp => m.sampleYield vals θ smp b).sum := by
  have hi : m.channels[pre.length]? = some ch := by rw [hch]; simp
  have := tot_local hu hA h hv hi hb
  unfold chOff at this
  rwa [hch, List.take_left'] at this
  rfl

/-- The bins of a vector as a list. -/
def asList (N : Nat → ℝ) (nb : Nat) : List ℝ := (List.range nb).map N

theorem slice_at {n P : Nat} {m : Mdl n P} (hn : (m.channels.map (·.name)).Nodup) (N : Nat → ℝ)
    {pre post : List Channel} {ch : Channel} (hch : m.channels = pre ++ ch :: post) :
    m.channelSlice (asList N m.nbins) ch.name =
      .ok ((List.range ch.nbins).map fun b => N ((pre.map (·.nbins)).sum + b)) := by
  unfold channelSlice
  rw [Dict.getItem_ok.2 (offset_eq hn hch), bind_ok, find_channel hn (by rw [hch]; simp)]
  simp only [pure_ok]
  congr 1
  have hnb : m.nbins = (pre.map (·.nbins)).sum + (ch.nbins + (post.map (·.nbins)).sum) := by
    rw [nbins_eq_sum, hch]; simp
  refine List.ext_getElem (by simp [asList, hnb]) fun i h1 h2 => ?_
  simp [asList]

/-! ### The merged model -/

section
variable {n P : Nat} {m m' : Mdl n P} {kind : String → ChKind} {names : List String} {mergedName : String}
  {obs : Option (List (ℝ × ℝ))} {ms pre post : List Channel} {merged c0 : Channel} {keys : List String}

theorem MergedInto.channels (h : MergedInto m names mergedName ms m' merged keys pre c0 post) :
    m'.channels = pre ++ merged :: post.filter (fun c => decide (c.name ∉ names)) := by rw [h.model]

theorem MergedInto.names_nodup (h : MergedInto m names mergedName ms m' merged keys pre c0 post)
    (hM : Mergeable m kind names mergedName obs ms) : (m'.channels.map (·.name)).Nodup := by
  have hn := hM.channels
  rw [h.split] at hn
  rw [h.channels]
  simp only [List.map_append, List.map_cons] at hn ⊢
  obtain ⟨h1, h2, h3⟩ := List.nodup_append.1 hn
  rw [List.nodup_cons] at h2
  have hsub : ((post.filter (fun c => decide (c.name ∉ names))).map (·.name)).Sublist (post.map (·.name)) :=
    List.filter_sublist.map _
  refine List.nodup_append.2 ⟨h1, List.nodup_cons.2 ⟨?_, h2.2.sublist hsub⟩, ?_⟩
  · intro hm
    obtain ⟨c, hc, hcn⟩ := List.mem_map.1 hm
    obtain ⟨hc, hcn'⟩ := List.mem_filter.1 hc
    rw [h.name] at hcn
    exact hM.fresh c (by rw [h.split]; simp [hc]) (by simpa using hcn') hcn
  · intro a ha b hb
    rcases List.mem_cons.1 hb with rfl | hb
    · obtain ⟨c, hc, rfl⟩ := List.mem_map.1 ha
      rw [h.name]
      exact hM.fresh c (by rw [h.split]; simp [hc]) (h.isPre c hc)
    · exact h3 a ha b (List.mem_cons_of_mem _ (hsub.subset hb))

theorem MergedInto.order (h : MergedInto m names mergedName ms m' merged keys pre c0 post)
    (hM : Mergeable m kind names mergedName obs ms) (ho : PoissonFirst m.channels) :
    PoissonFirst m'.channels := by
  unfold PoissonFirst at ho ⊢
  have hc0 : c0.gaussian = false := by
    obtain ⟨ch, hc, hcm, hn⟩ := hM.known h.isC0
    have e1 := find_of_nodup hM.channels hcm
    have e2 := find_of_nodup hM.channels (a := c0) (by rw [h.split]; simp)
    rw [hn, e2] at e1
    rw [Option.some.inj e1]
    exact (hM.kinds ch hc).1
  refine ho.sublist ?_
  rw [h.channels, h.split]
  simp only [List.map_append, List.map_cons, h.gaussian, hc0]
  exact (List.Sublist.refl _).append ((List.filter_sublist.map _).cons_cons _)

theorem MergedInto.merged_samples (h : MergedInto m names mergedName ms m' merged keys pre c0 post)
    {M : Sample} (hM : M ∈ merged.samples) : ∃ nm ∈ keys, IsMerged ms nm M := by
  obtain ⟨i, hi, rfl⟩ := List.mem_iff_getElem.1 hM
  have hl := h.samples.length_eq
  have := (List.forall₂_iff_get.1 h.samples).2 i (by omega) hi
  exact ⟨_, List.getElem_mem _, this⟩

theorem MergedInto.std (h : MergedInto m names mergedName ms m' merged keys pre c0 post)
    (hM : Mergeable m kind names mergedName obs ms)
    (hs : ∀ ch ∈ m.channels, 0 < ch.nbins ∧ ∀ s ∈ ch.samples, s.Std ch.nbins) :
    ∀ ch ∈ m'.channels, 0 < ch.nbins ∧ ∀ s ∈ ch.samples, s.Std ch.nbins := by
  intro ch hc
  rw [h.channels] at hc
  rcases List.mem_append.1 hc with hc | hc
  · exact hs ch (by rw [h.split]; simp [hc])
  · rcases List.mem_cons.1 hc with rfl | hc
    · rw [h.nbins]
      refine ⟨?_, fun M hMm => ?_⟩
      · obtain ⟨c, hc1, _⟩ := hM.known h.isC0
        have := hM.aligned.pos c hc1
        have h2 := List.single_le_sum (l := ms.map (·.nbins)) (by simp) c.nbins (List.mem_map.2 ⟨c, hc1, rfl⟩)
        omega
      · obtain ⟨nm, _, hi⟩ := h.merged_samples hMm
        exact hi.std
    · exact hs ch (by rw [h.split]; simp [List.mem_of_mem_filter hc])

theorem MergedInto.computable (h : MergedInto m names mergedName ms m' merged keys pre c0 post)
    (hM : Mergeable m kind names mergedName obs ms)
    (hs : ∀ ch ∈ m.channels, 0 < ch.nbins ∧ ∀ s ∈ ch.samples, s.Std ch.nbins) {vals : Dict ℝ}
    (hc : m.Computable vals) : m'.Computable vals := by
  have hstd := h.std hM hs
  have hmem : ∀ ch ∈ m'.channels, ch ∈ m.channels ∨ ch = merged := by
    intro ch hch
    rw [h.channels] at hch
    rcases List.mem_append.1 hch with hch | hch
    · exact .inl (by rw [h.split]; simp [hch])
    · rcases List.mem_cons.1 hch with rfl | hch
      · exact .inr rfl
      · exact .inl (by rw [h.split]; simp [List.mem_of_mem_filter hch])
  refine ⟨shapeOk_of_yieldsShaped fun ch hch s hsm => ((hstd ch hch).2 s hsm).1, fun ch hch s hsm => ?_,
    fun ch hch s hsm => ?_⟩
  · rcases hmem ch hch with h1 | rfl
    · exact hc.norm0 ch h1 s hsm
    · obtain ⟨nm, _, hi⟩ := h.merged_samples hsm
      exact hi.nn
  · rcases hmem ch hch with h1 | rfl
    · exact hc.value ch h1 s hsm
    · obtain ⟨nm, _, hi⟩ := h.merged_samples hsm
      obtain ⟨c, hcm, t, ht, _, hno⟩ := hi.source
      rw [hno]
      exact hc.value c (hM.mem hcm).1 t ht

/-- Yield of a sample name in a bin of a channel. -/
noncomputable def nameYield (m : Mdl n P) (vals : Dict ℝ) (θ : Fin P → ℝ) (ch : Channel) (b : Nat) (nm : String) : ℝ :=
  match getSample ch nm with
  | some s => m.sampleYield vals θ s b
  | none => 0

theorem sum_names (m : Mdl n P) (vals : Dict ℝ) (θ : Fin P → ℝ) (ch : Channel) (b : Nat)
    (hn : (ch.samples.map (·.name)).Nodup) {keys : List String} (hk : keys.Nodup)
    (hsub : ∀ s ∈ ch.samples, s.name ∈ keys) :
    (keys.map (nameYield m vals θ ch b)).sum = (ch.samples.map fun s => m.sampleYield vals θ s b).sum := by
  classical
  have e : (ch.samples.map fun s => m.sampleYield vals θ s b) =
      (ch.samples.map (·.name)).map (nameYield m vals θ ch b) := by
    rw [List.map_map]
    refine List.map_congr_left fun s hs => ?_
    simp only [Function.comp, nameYield, getSample_mem hn hs]
  rw [e, ← List.sum_toFinset _ hk, ← List.sum_toFinset _ hn]
  symm
  refine Finset.sum_subset ?_ ?_
  · intro nm hnm
    simp only [List.mem_toFinset, List.mem_map] at hnm ⊢
    obtain ⟨s, hs, rfl⟩ := hnm
    exact hsub s hs
  · intro nm _ hnm
    simp only [List.mem_toFinset, List.mem_map, not_exists, not_and] at hnm
    unfold nameYield
    cases hg : getSample ch nm with
    | none => rfl
    | some s => exact absurd (getSample_some hg).2 (hnm s (getSample_some hg).1)

/-- The yields of the merged channel in the bins of one of the channels. -/
theorem MergedInto.merged_yields (h : MergedInto m names mergedName ms m' merged keys pre c0 post)
    (hM : Mergeable m kind names mergedName obs ms) (hcut : m.cutoff = 0) (hvar : m.variations = none)
    (vals : Dict ℝ) (θ : Fin P → ℝ) {pre1 post1 : List Channel} {ch : Channel} (hms : ms = pre1 ++ ch :: post1)
    {b : Nat} (hb : b < ch.nbins) :
    (merged.samples.map fun M => m'.sampleYield vals θ M ((pre1.map (·.nbins)).sum + b)).sum =
      (ch.samples.map fun s => m.sampleYield vals θ s b).sum := by
  have hch : ch ∈ ms := by rw [hms]; simp
  rw [← sum_names m vals θ ch b (hM.aligned.names ch hch) h.nodup (fun s hs => h.isKeys ch hch s hs)]
  congr 1
  have hlt : (pre1.map (·.nbins)).sum + b < (ms.map (·.nbins)).sum := by rw [hms]; exact getD_sum_lt hb
  have key : ∀ nm M, IsMerged ms nm M →
      m'.sampleYield vals θ M ((pre1.map (·.nbins)).sum + b) = nameYield m vals θ ch b nm := by
    intro nm M hi
    unfold nameYield
    cases hg : getSample ch nm with
    | none => simp only [sampleYield, hi.absent pre1 ch post1 hms hg b hb, mul_zero, zero_mul]
    | some s =>
      obtain ⟨hs, hsn⟩ := getSample_some hg
      obtain ⟨h1, h2⟩ := hi.present pre1 ch post1 hms s hg b hb
      obtain ⟨hstd, hnn⟩ := hM.aligned.std ch hch s hs
      have hnorm : M.norm = s.norm := by
        obtain ⟨c, hc, t, ht, htn, hno⟩ := hi.source
        rw [hno]
        exact hM.aligned.norms c hc t ht ch hch s hs (by rw [htn, hsn])
      simp only [sampleYield, h.model, h1, hnorm, hcut, hvar]
      congr 1
      · have := hi.nn
        field_simp
      · congr 2
        refine Finset.sum_congr rfl fun p _ => ?_
        rw [hi.std.term _ _ _ hlt, hstd.term _ _ _ hb, h2]
  have hl := h.samples
  generalize merged.samples = l at hl
  clear h
  induction hl with
  | nil => rfl
  | cons h1 _ ih =>
    rw [List.map_cons, List.map_cons, key _ _ h1, ih]
end

/-- A list cut in the bins of channels. -/
theorem flatten_range (ms : List Channel) (g : Channel → Nat → ℝ) (f : Nat → ℝ)
    (h : ∀ pre ch post, ms = pre ++ ch :: post → ∀ b < ch.nbins, f ((pre.map (·.nbins)).sum + b) = g ch b) :
    (List.range (ms.map (·.nbins)).sum).map f = (ms.map fun ch => (List.range ch.nbins).map (g ch)).flatten := by
  induction ms generalizing f with
  | nil => rfl
  | cons a ms ih =>
    simp only [List.map_cons, List.sum_cons, List.flatten_cons]
    rw [List.range_add, List.map_append, List.map_map]
    congr 1
    · refine List.map_congr_left fun b hb => ?_
      have := h [] a ms rfl b (List.mem_range.1 hb)
      simpa using this
    · refine ih (f ∘ fun x => a.nbins + x) fun pre ch post hms b hb => ?_
      have := h (a :: pre) ch post (by rw [hms]; rfl) b hb
      simp only [List.map_cons, List.sum_cons] at this
      simp only [Function.comp, ← this, Nat.add_assoc]

end Verif
