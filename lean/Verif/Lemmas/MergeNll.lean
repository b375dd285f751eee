import Verif.Lemmas.MergeTot
import Verif.Lemmas.NLLVal
/-!
# Bins and likelihood of a model with merged channels
-/
namespace Verif
open Merge Mdl

section
variable {n P : Nat} {m m' : Mdl n P} {kind : String → ChKind} {names : List String} {mergedName : String}
  {obs : Option (List (ℝ × ℝ))} {ms pre post : List Channel} {merged c0 : Channel} {keys : List String}

/-- The values `f'` on the bins of the merged model are the values `f` on the bins of the original:
the bins of the merged channel are those of the channels `ms` in order, the other channels have their
bins. -/
structure SameBins {α : Type} (m m' : Mdl n P) (names : List String) (ms pre : List Channel)
    (f f' : Nat → α) : Prop where
  other : ∀ ch p q p' q', ch.name ∉ names → m.channels = p ++ ch :: q → m'.channels = p' ++ ch :: q' →
    ∀ b < ch.nbins, f' ((p'.map (·.nbins)).sum + b) = f ((p.map (·.nbins)).sum + b)
  merged : ∀ ch p q p1 q1, ms = p1 ++ ch :: q1 → m.channels = p ++ ch :: q → ∀ b < ch.nbins,
    f' ((pre.map (·.nbins)).sum + ((p1.map (·.nbins)).sum + b)) = f ((p.map (·.nbins)).sum + b)

theorem SameBins.comp {α β : Type} {f f' : Nat → α} (h : SameBins m m' names ms pre f f') (g : α → β) :
    SameBins m m' names ms pre (fun b => g (f b)) (fun b => g (f' b)) :=
  ⟨fun ch p q p' q' h1 h2 h3 b hb => congrArg g (h.other ch p q p' q' h1 h2 h3 b hb),
   fun ch p q p1 q1 h1 h2 b hb => congrArg g (h.merged ch p q p1 q1 h1 h2 b hb)⟩

theorem SameBins.pair {α β : Type} {f f' : Nat → α} {g g' : Nat → β} (h : SameBins m m' names ms pre f f')
    (h' : SameBins m m' names ms pre g g') :
    SameBins m m' names ms pre (fun b => (f b, g b)) (fun b => (f' b, g' b)) :=
  ⟨fun ch p q p' q' h1 h2 h3 b hb => Prod.ext (h.other ch p q p' q' h1 h2 h3 b hb) (h'.other ch p q p' q' h1 h2 h3 b hb),
   fun ch p q p1 q1 h1 h2 b hb => Prod.ext (h.merged ch p q p1 q1 h1 h2 b hb) (h'.merged ch p q p1 q1 h1 h2 b hb)⟩

/-- Predictions. -/
theorem MergedInto.sameBins (h : MergedInto m names mergedName ms m' merged keys pre c0 post)
    (hM : Mergeable m kind names mergedName obs ms) (hcut : m.cutoff = 0) (hvar : m.variations = none)
    (hs : ∀ ch ∈ m.channels, 0 < ch.nbins ∧ ∀ s ∈ ch.samples, s.Std ch.nbins) {A A' : Arrays}
    (hA : m.setInternal = .ok A) (hA' : m'.setInternal = .ok A') {x : Fin n → ℝ} {θ : Fin P → ℝ} {N}
    (hN : m.totBinExp A x θ = .ok N) :
    ∃ N', m'.totBinExp A' x θ = .ok N' ∧ SameBins m m' names ms pre N N' := by
  obtain ⟨ne, hne, _⟩ := nExp_of_totBinExp hN
  obtain ⟨vals, hv, hc⟩ := nExp_inv hne
  have hv' : m'.ctx.realVals x = .ok vals := by rw [h.model]; exact hv
  have hvar' : m'.variations = none := by rw [h.model]; exact hvar
  have hN' := tot_ok A' θ hv' (h.computable hM hs hc)
  have hu := uniform_of_std hvar hs
  have hu' := uniform_of_std hvar' (h.std hM hs)
  refine ⟨_, hN', ?_, ?_⟩
  · intro ch p q p' q' _ h2 h3 b hb
    rw [tot_at hu' hA' hN' hv' h3 hb, tot_at hu hA hN hv h2 hb]
    congr 1
    refine List.map_congr_left fun s _ => ?_
    simp only [sampleYield, h.model, hcut]
  · intro ch p q p1 q1 h1 h2 b hb
    rw [tot_at hu' hA' hN' hv' h.channels (by rw [h.nbins, h1]; exact getD_sum_lt hb),
      tot_at hu hA hN hv h2 hb]
    exact h.merged_yields hM hcut hvar vals θ h1 hb

/-- Positions of the other channels. -/
theorem MergedInto.other_pos (h : MergedInto m names mergedName ms m' merged keys pre c0 post)
    {ch : Channel} (hc : ch ∈ m.channels) (hn : ch.name ∉ names) :
    ∃ p' q', m'.channels = p' ++ ch :: q' := by
  have : ch ∈ m'.channels := by
    rw [h.channels]
    rw [h.split] at hc
    rcases List.mem_append.1 hc with hc | hc
    · simp [hc]
    · rcases List.mem_cons.1 hc with rfl | hc
      · exact absurd h.isC0 hn
      · simp [hc, hn]
  exact List.append_of_mem this

theorem Mergeable.pos (hM : Mergeable m kind names mergedName obs ms) {ch : Channel} (hc : ch ∈ ms) :
    ∃ p q, m.channels = p ++ ch :: q := List.append_of_mem (hM.mem hc).1

/-- Slices of two vectors with the same bins. -/
theorem SameBins.slices (h : MergedInto m names mergedName ms m' merged keys pre c0 post)
    (hM : Mergeable m kind names mergedName obs ms) {N N' : Nat → ℝ} (hN : SameBins m m' names ms pre N N') :
    (∀ ch ∈ m.channels, ch.name ∉ names → m'.channelSlice (asList N' m'.nbins) ch.name =
      m.channelSlice (asList N m.nbins) ch.name) ∧
    ∃ parts, names.mapM (m.channelSlice (asList N m.nbins)) = .ok parts ∧
      m'.channelSlice (asList N' m'.nbins) mergedName = .ok parts.flatten := by
  have hn' := h.names_nodup hM
  constructor
  · intro ch hc hcn
    obtain ⟨p, q, hp⟩ := List.append_of_mem hc
    obtain ⟨p', q', hp'⟩ := h.other_pos hc hcn
    rw [slice_at hM.channels N hp, slice_at hn' N' hp']
    congr 1
    exact List.map_congr_left fun b hb => hN.other ch p q p' q' hcn hp hp' b (List.mem_range.1 hb)
  · let off : Channel → Nat := fun ch => (m.offsets.get? ch.name).getD 0
    have hoff : ∀ ch p q, m.channels = p ++ ch :: q → off ch = (p.map (·.nbins)).sum := by
      intro ch p q hp
      simp only [off, offset_eq hM.channels hp, Option.getD_some]
    refine ⟨ms.map fun ch => (List.range ch.nbins).map fun b => N (off ch + b), ?_, ?_⟩
    · refine mapM_ok_iff.2 ?_
      rw [List.forall₂_map_right_iff]
      refine hM.selected.imp fun nm ch hc => ?_
      obtain ⟨hc, rfl⟩ := hc
      obtain ⟨p, q, hp⟩ := List.append_of_mem hc
      rw [slice_at hM.channels N hp, hoff ch p q hp]
    · rw [← h.name, slice_at hn' N' h.channels, h.nbins]
      congr 1
      refine flatten_range ms (fun ch b => N (off ch + b)) _ fun p1 ch q1 hms b hb => ?_
      obtain ⟨p, q, hp⟩ := hM.pos (ch := ch) (by rw [hms]; simp)
      rw [hN.merged ch p q p1 q1 hms hp b hb, hoff ch p q hp]

end

/-! ### Sums over Poisson bins -/

theorem Flt.add_comm (a b : Flt) : a.add b = b.add a := by
  cases a <;> cases b <;> simp [Flt.add, _root_.add_comm]

theorem Flt.add_left_comm (a b c : Flt) : a.add (b.add c) = b.add (a.add c) := by
  cases a <;> cases b <;> cases c <;> simp [Flt.add]
  ring

theorem Flt.sum_perm {l l' : List Flt} (h : l.Perm l') : Flt.sum l = Flt.sum l' := by
  unfold Flt.sum
  induction h with
  | nil => rfl
  | cons x _ ih => simp [ih]
  | swap x y l => exact Flt.add_left_comm _ _ _
  | trans _ _ ih1 ih2 => rw [ih1, ih2]

theorem flatten_range' {α : Type} (ms : List Channel) (g : Channel → Nat → α) (f : Nat → α)
    (h : ∀ pre ch post, ms = pre ++ ch :: post → ∀ b < ch.nbins, f ((pre.map (·.nbins)).sum + b) = g ch b) :
    (List.range (ms.map (·.nbins)).sum).map f = (ms.map fun ch => (List.range ch.nbins).map (g ch)).flatten := by
  induction ms generalizing f with
  | nil => rfl
  | cons a ms ih =>
    simp only [List.map_cons, List.sum_cons, List.flatten_cons]
    rw [List.range_add, List.map_append, List.map_map]
    congr 1
    · refine List.map_congr_left fun b hb => ?_
      have := h [] a ms rfl b (List.mem_range.1 hb)
      simpa using this
    · refine ih (f ∘ fun x => a.nbins + x) fun pre ch post hms b hb => ?_
      have := h (a :: pre) ch post (by rw [hms]; rfl) b hb
      simp only [List.map_cons, List.sum_cons] at this
      simp only [Function.comp, ← this, Nat.add_assoc]

section
variable {n P : Nat} {m m' : Mdl n P} {kind : String → ChKind} {names : List String} {mergedName : String}
  {obs : Option (List (ℝ × ℝ))} {ms pre post : List Channel} {merged c0 : Channel} {keys : List String}

/-- The Poisson channels, then the Gaussian ones. -/
theorem poisson_split {l : List Channel} (ho : PoissonFirst l) : l = l.filter (fun c => !c.gaussian) ++
    l.filter (fun c => c.gaussian) := ((poissonFirst_iff l).1 ho).symm

/-- The channels of the merge are the original ones, in another order. -/
theorem MergedInto.perm (h : MergedInto m names mergedName ms m' merged keys pre c0 post)
    (hM : Mergeable m kind names mergedName obs ms) :
    m.channels.Perm (pre ++ (ms ++ post.filter (fun c => decide (c.name ∉ names)))) := by
  have hmsn : ms.map (·.name) = names := by
    have hs := hM.selected
    clear hM h
    induction hs with
    | nil => rfl
    | cons h1 _ ih => rw [List.map_cons, h1.2, ih]
  have hnd : ms.Nodup := by
    have := hM.nodup
    rw [← hmsn] at this
    exact List.Nodup.of_map _ this
  have hcn : m.channels.Nodup := List.Nodup.of_map _ hM.channels
  rw [h.split]
  refine List.Perm.append_left _ ?_
  have hcn' := hcn
  rw [h.split] at hcn
  have hsub := (List.nodup_append.1 hcn).2.1
  -- the rest
  have h1 : (c0 :: post).Perm ((c0 :: post).filter (fun c => decide (c.name ∈ names)) ++
      (c0 :: post).filter (fun c => !decide (c.name ∈ names))) := (List.filter_append_perm _ _).symm
  refine h1.trans ?_
  have h2 : (c0 :: post).filter (fun c => !decide (c.name ∈ names)) =
      post.filter (fun c => decide (c.name ∉ names)) := by
    rw [List.filter_cons_of_neg (by simp [h.isC0])]
    refine List.filter_congr fun c _ => by simp
  rw [h2]
  refine List.Perm.append_right _ ?_
  refine (List.perm_ext_iff_of_nodup (hsub.filter _) hnd).2 fun c => ?_
  rw [List.mem_filter]
  constructor
  · rintro ⟨hc, hn⟩
    obtain ⟨ch, h3, h4, h5⟩ := hM.known (by simpa using hn : c.name ∈ names)
    have e1 := find_of_nodup hM.channels h4
    have e2 := find_of_nodup hM.channels (a := c) (by rw [h.split]; exact List.mem_append_right _ hc)
    rw [h5, e2] at e1
    rw [Option.some.inj e1]; exact h3
  · intro hc
    obtain ⟨h3, h4⟩ := hM.mem hc
    refine ⟨?_, by simpa using h4⟩
    rw [h.split] at h3
    rcases List.mem_append.1 h3 with h3 | h3
    · exact absurd h4 (h.isPre c h3)
    · exact h3

/-- The values in the Poisson bins, in some order. -/
theorem SameBins.poisson_perm {α : Type} (h : MergedInto m names mergedName ms m' merged keys pre c0 post)
    (hM : Mergeable m kind names mergedName obs ms) (ho : PoissonFirst m.channels) {f f' : Nat → α}
    (hf : SameBins m m' names ms pre f f') :
    ((List.range m.nbinsPoisson).map f).Perm ((List.range m'.nbinsPoisson).map f') ∧
    m'.nbinsPoisson = m.nbinsPoisson ∧
    m'.channels.filter (fun c => c.gaussian) = m.channels.filter (fun c => c.gaussian) ∧
    ∀ i < m.nbinsGaussian, f' (m'.nbinsPoisson + i) = f (m.nbinsPoisson + i) := by
  have ho' := h.order hM ho
  have hn' := h.names_nodup hM
  let off : Channel → Nat := fun ch => (m.offsets.get? ch.name).getD 0
  have hoff : ∀ ch p q, m.channels = p ++ ch :: q → off ch = (p.map (·.nbins)).sum := by
    intro ch p q hp
    simp only [off, offset_eq hM.channels hp, Option.getD_some]
  let G : Channel → List α := fun ch => (List.range ch.nbins).map fun b => f (off ch + b)
  have hmsP : ∀ c ∈ ms, c.gaussian = false := fun c hc => (hM.kinds c hc).1
  have hgauss : m'.channels.filter (fun c => c.gaussian) = m.channels.filter (fun c => c.gaussian) := by
    rw [h.channels, h.split]
    have hc0 : c0.gaussian = false := by
      obtain ⟨ch, hc, hcm, hn⟩ := hM.known h.isC0
      have e1 := find_of_nodup hM.channels hcm
      have e2 := find_of_nodup hM.channels (a := c0) (by rw [h.split]; simp)
      rw [hn, e2] at e1
      rw [Option.some.inj e1]
      exact hmsP ch hc
    rw [List.filter_append, List.filter_append, List.filter_cons_of_neg (by simp [h.gaussian]),
      List.filter_cons_of_neg (by simp [hc0]), List.filter_filter]
    congr 1
    refine List.filter_congr fun c hc => ?_
    by_cases hg : c.gaussian = true
    · have : c.name ∉ names := by
        intro hcn
        obtain ⟨ch, h1, h2, h3⟩ := hM.known hcn
        have e1 := find_of_nodup hM.channels h2
        have e2 := find_of_nodup hM.channels (a := c) (by rw [h.split]; simp [hc])
        rw [h3, e2] at e1
        rw [Option.some.inj e1, hmsP ch h1] at hg
        cases hg
      simp [hg, this]
    · simp [hg]
  have hsum : m'.nbins = m.nbins := by
    rw [nbins_eq_sum, nbins_eq_sum, h.channels, ((h.perm hM).map (·.nbins)).sum_eq]
    simp [h.nbins]
  have hPG : ∀ l : List Channel, PoissonFirst l → (l.map (·.nbins)).sum =
      ((l.filter (fun c => !c.gaussian)).map (·.nbins)).sum + ((l.filter (fun c => c.gaussian)).map (·.nbins)).sum := by
    intro l hl
    conv_lhs => rw [poisson_split hl]
    simp
  have hnP : m'.nbinsPoisson = m.nbinsPoisson := by
    have e1 := hPG _ ho
    have e2 := hPG _ ho'
    rw [← nbins_eq_sum] at e1 e2
    unfold nbinsPoisson
    rw [hgauss] at e2
    omega
  refine ⟨?_, hnP, hgauss, ?_⟩
  · have e1 : (List.range m.nbinsPoisson).map f = ((m.channels.filter (fun c => !c.gaussian)).map G).flatten := by
      refine flatten_range' _ (fun ch b => f (off ch + b)) f fun p ch q hpq b hb => ?_
      rw [hoff ch p (q ++ m.channels.filter (fun c => c.gaussian))]
      conv_lhs => rw [poisson_split ho]
      rw [hpq]; simp
    -- the bins of the merged model
    let off' : Channel → Nat := fun ch => (m'.offsets.get? ch.name).getD 0
    have hoff' : ∀ ch p q, m'.channels = p ++ ch :: q → off' ch = (p.map (·.nbins)).sum := by
      intro ch p q hp
      simp only [off', offset_eq hn' hp, Option.getD_some]
    have e2 : (List.range m'.nbinsPoisson).map f' = ((m'.channels.filter (fun c => !c.gaussian)).map
        fun ch => (List.range ch.nbins).map fun b => f' (off' ch + b)).flatten := by
      refine flatten_range' _ (fun ch b => f' (off' ch + b)) f' fun p ch q hpq b hb => ?_
      rw [hoff' ch p (q ++ m'.channels.filter (fun c => c.gaussian))]
      conv_lhs => rw [poisson_split ho']
      rw [hpq]; simp
    have hG : ∀ ch ∈ m.channels, ch.name ∉ names →
        ((List.range ch.nbins).map fun b => f' (off' ch + b)) = G ch := by
      intro ch hc hcn
      obtain ⟨p, q, hp⟩ := List.append_of_mem hc
      obtain ⟨p', q', hp'⟩ := h.other_pos hc hcn
      refine List.map_congr_left fun b hb => ?_
      rw [hoff' ch p' q' hp', hoff ch p q hp]
      exact hf.other ch p q p' q' hcn hp hp' b (List.mem_range.1 hb)
    have hMg : ((List.range merged.nbins).map fun b => f' (off' merged + b)) = (ms.map G).flatten := by
      rw [h.nbins, hoff' merged _ _ h.channels]
      refine flatten_range' ms (fun ch b => f (off ch + b)) _ fun p1 ch q1 hms b hb => ?_
      obtain ⟨p, q, hp⟩ := hM.pos (ch := ch) (by rw [hms]; simp)
      rw [hf.merged ch p q p1 q1 hms hp b hb, hoff ch p q hp]
    rw [e1, e2, h.channels, List.filter_append, List.filter_cons_of_pos (by simp [h.gaussian])]
    simp only [List.map_append, List.map_cons, List.flatten_append, List.flatten_cons]
    rw [hMg, List.map_congr_left (g := G) (fun ch hc => hG ch (by rw [h.split]; simp [List.mem_of_mem_filter hc])
        (h.isPre ch (List.mem_of_mem_filter hc))),
      List.map_congr_left (g := G) (l := List.filter _ (List.filter _ post)) (fun ch hc => by
        have hc := List.mem_of_mem_filter hc
        have hcn := (List.mem_filter.1 hc).2
        exact hG ch (by rw [h.split]; simp [List.mem_of_mem_filter hc]) (by simpa using hcn))]
    have hp := ((h.perm hM).filter (fun c => !c.gaussian)).map G
    have hp2 := hp.flatten
    have hfm : ms.filter (fun c => !c.gaussian) = ms := List.filter_eq_self.2 (fun c hc => by simp [hmsP c hc])
    rw [List.filter_append, List.filter_append, hfm] at hp2
    simpa using hp2
  · intro i hi
    have hG : (m.nbinsPoisson + i) < m.nbins := by
      have e1 := hPG _ ho
      rw [← nbins_eq_sum] at e1
      unfold nbinsPoisson nbinsGaussian at *
      omega
    -- the channel of this bin
    have key : ∀ (l : List Channel) (j : Nat), j < (l.map (·.nbins)).sum → ∃ p ch q b, l = p ++ ch :: q ∧
        b < ch.nbins ∧ j = (p.map (·.nbins)).sum + b := by
      intro l
      induction l with
      | nil => intro j hj; simp at hj
      | cons a l ih =>
        intro j hj
        by_cases hja : j < a.nbins
        · exact ⟨[], a, l, j, rfl, hja, by simp⟩
        · simp only [List.map_cons, List.sum_cons] at hj
          obtain ⟨p, ch, q, b, h1, h2, h3⟩ := ih (j - a.nbins) (by omega)
          exact ⟨a :: p, ch, q, b, by rw [h1]; rfl, h2, by simp only [List.map_cons, List.sum_cons]; omega⟩
    obtain ⟨p, ch, q, b, hpq, hb, hj⟩ := key _ i hi
    have hg : ch.gaussian = true := by
      have : ch ∈ m.channels.filter (fun c => c.gaussian) := by rw [hpq]; simp
      exact (List.mem_filter.1 this).2
    have hcm : ch ∈ m.channels := by
      have : ch ∈ m.channels.filter (fun c => c.gaussian) := by rw [hpq]; simp
      exact List.mem_of_mem_filter this
    have hcn : ch.name ∉ names := by
      intro hcn
      obtain ⟨c, h1, h2, h3⟩ := hM.known hcn
      have e1 := find_of_nodup hM.channels h2
      have e2 := find_of_nodup hM.channels hcm
      rw [h3, e2] at e1
      rw [Option.some.inj e1, hmsP c h1] at hg
      cases hg
    have h1 : m.channels = (m.channels.filter (fun c => !c.gaussian) ++ p) ++ ch :: q := by
      conv_lhs => rw [poisson_split ho]
      rw [hpq]; simp
    have h2 : m'.channels = (m'.channels.filter (fun c => !c.gaussian) ++ p) ++ ch :: q := by
      conv_lhs => rw [poisson_split ho']
      rw [hgauss, hpq]; simp
    have := hf.other ch _ _ _ _ hcn h1 h2 b hb
    simp only [List.map_append, List.sum_append] at this
    subst hj
    rw [Nat.add_assoc, Nat.add_assoc] at this
    exact this

end
end Verif
