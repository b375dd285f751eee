import Verif.Lemmas.MergeNll
/-!
# Data and likelihood of a model with merged channels
-/
namespace Verif
open Merge Mdl

/-! ### The Gaussian part -/

theorem chanStep_foldl_hessian (nP : Nat) (l : List Channel) :
    ∀ st st' : ChanState, st.nbins = st'.nbins → st.poiHessian = st'.poiHessian →
      (l.foldl (chanStep nP) st).poiHessian = (l.foldl (chanStep nP) st').poiHessian := by
  induction l with
  | nil => intro st st' _ h; exact h
  | cons a l ih =>
    intro st st' h1 h2
    exact ih _ _ (by simp [chanStep, h1]) (by simp [chanStep, h1, h2])

theorem chanStep_foldl_poisson (nP : Nat) (l : List Channel) (h : ∀ c ∈ l, c.gaussian = false) :
    ∀ st : ChanState, (l.foldl (chanStep nP) st).poiHessian = st.poiHessian := by
  induction l with
  | nil => intro st; rfl
  | cons a l ih =>
    intro st
    rw [List.foldl_cons, ih fun c hc => h c (by simp [hc])]
    simp [chanStep, h a (by simp)]

theorem poiHessian_eq {n P : Nat} {m : Mdl n P} (ho : PoissonFirst m.channels) :
    m.poiHessian = ((m.channels.filter (fun c => c.gaussian)).foldl (chanStep m.nbinsPoisson)
      ⟨0, m.nbinsPoisson, [], fun _ _ => 0⟩).poiHessian := by
  unfold poiHessian chanState
  conv_lhs => rw [poisson_split ho]
  rw [List.foldl_append]
  refine chanStep_foldl_hessian _ _ _ _ ?_ ?_
  · rw [chanStep_foldl_nbins]; simp [nbinsPoisson]
  · rw [chanStep_foldl_poisson]
    intro c hc
    have := (List.mem_filter.1 hc).2
    simpa using this

section
variable {n P : Nat} {m m' : Mdl n P} {kind : String → ChKind} {names : List String} {mergedName : String}
  {obs : Option (List (ℝ × ℝ))} {ms pre post : List Channel} {merged c0 : Channel} {keys : List String}

/-- Same predictions and same data, same likelihood. -/
theorem SameBins.nll (h : MergedInto m names mergedName ms m' merged keys pre c0 post)
    (hM : Mergeable m kind names mergedName obs ms) (ho : PoissonFirst m.channels) {A A' : Arrays}
    {x : Fin n → ℝ} {θ : Fin P → ℝ} {N N' N0 N0' : Nat → ℝ} (hN : m.totBinExp A x θ = .ok N)
    (hN' : m'.totBinExp A' x θ = .ok N') (hS : SameBins m m' names ms pre N N')
    (h0 : m.refTot A = .ok N0) (h0' : m'.refTot A' = .ok N0') (hS0 : SameBins m m' names ms pre N0 N0')
    {d d' : DataV P} (hd : SameBins m m' names ms pre d.counts d'.counts) (ha : d'.aux_obs = d.aux_obs)
    (offset : Bool) (floor : Option ℝ) (nc : Bool) :
    m'.nll A' x θ d' offset floor nc = m.nll A x θ d offset floor nc := by
  -- all values of a bin
  have hall := (hS.pair hS0).pair hd
  obtain ⟨hp, hnP, hG, hg⟩ := hall.poisson_perm h hM ho
  have hnG : m'.nbinsGaussian = m.nbinsGaussian := by unfold nbinsGaussian; rw [hG]
  have hH : m'.poiHessian = m.poiHessian := by
    rw [poiHessian_eq ho, poiHessian_eq (h.order hM ho), hG, hnP]
  have hct : m'.constraintTerm θ d' = m.constraintTerm θ d := by
    have : m'.constraintHessian = m.constraintHessian := by
      unfold constraintHessian; rw [h.model]
    simp only [constraintTerm, ha, this]
  have hgN : ∀ i < m.nbinsGaussian, N' (m.nbinsPoisson + i) = N (m.nbinsPoisson + i) := fun i hi => by
    have := congrArg (fun q => q.1.1) (hg i hi); simpa [hnP] using this
  have hg0 : ∀ i < m.nbinsGaussian, N0' (m.nbinsPoisson + i) = N0 (m.nbinsPoisson + i) := fun i hi => by
    have := congrArg (fun q => q.1.2) (hg i hi); simpa [hnP] using this
  have hgd : ∀ i < m.nbinsGaussian, d'.counts (m.nbinsPoisson + i) = d.counts (m.nbinsPoisson + i) := fun i hi => by
    have := congrArg (fun q => q.2) (hg i hi); simpa [hnP] using this
  -- the floor
  let fl : ℝ → ℝ := fun y => match floor with
    | none => y
    | some f => max y f
  have hfl : ∃ M, m.totBinExp A x θ floor = .ok M ∧ (∀ b < m.nbinsPoisson, M b = fl (N b)) ∧
      ∀ i, M (m.nbinsPoisson + i) = N (m.nbinsPoisson + i) := by
    obtain ⟨ne, hne, rfl⟩ := nExp_of_totBinExp hN
    unfold totBinExp
    rw [hne]
    simp only [bind_ok, pure_ok]
    cases floor with
    | none => exact ⟨_, rfl, fun b _ => rfl, fun i => rfl⟩
    | some f => exact ⟨_, rfl, fun b hb => by simp [hb, fl], fun i => by simp⟩
  have hfl' : ∃ M, m'.totBinExp A' x θ floor = .ok M ∧ (∀ b < m.nbinsPoisson, M b = fl (N' b)) ∧
      ∀ i, M (m.nbinsPoisson + i) = N' (m.nbinsPoisson + i) := by
    obtain ⟨ne, hne, rfl⟩ := nExp_of_totBinExp hN'
    unfold totBinExp
    rw [hne]
    simp only [bind_ok, pure_ok]
    cases floor with
    | none => exact ⟨_, rfl, fun b _ => rfl, fun i => rfl⟩
    | some f => exact ⟨_, rfl, fun b hb => by simp [hnP, hb, fl], fun i => by simp [hnP]⟩
  obtain ⟨M, hM1, hM2, hM3⟩ := hfl
  obtain ⟨M', hM1', hM2', hM3'⟩ := hfl'
  have hsum : ∀ g : ℝ → ℝ → ℝ → Flt,
      Flt.sum ((List.range m.nbinsPoisson).map fun b => g (M' b) (N0' b) (d'.counts b)) =
      Flt.sum ((List.range m.nbinsPoisson).map fun b => g (M b) (N0 b) (d.counts b)) := by
    intro g
    have := Flt.sum_perm (hp.map fun q : (ℝ × ℝ) × ℝ => g (fl q.1.1) q.1.2 q.2)
    rw [List.map_map, List.map_map, hnP] at this
    have e1 : ((List.range m.nbinsPoisson).map fun b => g (M' b) (N0' b) (d'.counts b)) =
        (List.range m.nbinsPoisson).map ((fun q : (ℝ × ℝ) × ℝ => g (fl q.1.1) q.1.2 q.2) ∘
          fun b => ((N' b, N0' b), d'.counts b)) :=
      List.map_congr_left fun b hb => by simp only [Function.comp, hM2' b (List.mem_range.1 hb)]
    have e2 : ((List.range m.nbinsPoisson).map fun b => g (M b) (N0 b) (d.counts b)) =
        (List.range m.nbinsPoisson).map ((fun q : (ℝ × ℝ) × ℝ => g (fl q.1.1) q.1.2 q.2) ∘
          fun b => ((N b, N0 b), d.counts b)) :=
      List.map_congr_left fun b hb => by simp only [Function.comp, hM2 b (List.mem_range.1 hb)]
    rw [e1, e2]
    exact this.symm
  have hq : ∀ u v u' v' : Nat → ℝ, (∀ i < m.nbinsGaussian, u' i = u i) → (∀ i < m.nbinsGaussian, v' i = v i) →
      m'.quad u' v' = m.quad u v := by
    intro u v u' v' hu hv
    unfold quad
    rw [hnG, hH]
    congr 1
    refine Finset.sum_congr rfl fun i hi => Finset.sum_congr rfl fun j hj => ?_
    rw [hu i (Finset.mem_range.1 hi), hv j (Finset.mem_range.1 hj)]
  simp only [Mdl.nll, hM1, hM1', bind_ok, h0, h0', hnP, hct]
  cases offset with
  | false =>
    simp only [Bool.not_false, if_true, pure_ok, bind_ok]
    rw [hsum (fun N _ c => poissonTerm N c), hq _ _ _ _ (fun i hi => ?_) (fun i hi => ?_)] <;>
    rw [hM3', hM3, hgN i hi, hgd i hi]
  | true =>
    simp only [Bool.not_true, Bool.false_eq_true, if_false, pure_ok, bind_ok]
    rw [hsum (fun N N0 c => poissonTermOff N N0 c), hq _ _ _ _ (fun i hi => ?_) (fun i hi => ?_)] <;>
    rw [hM3', hM3, hgN i hi, hgd i hi, hg0 i hi]

/-! ### Counts -/

theorem getD_flatten_channels {l : List Channel} {H : Channel → List ℝ} (hl : ∀ c ∈ l, (H c).length = c.nbins)
    {p q : List Channel} {ch : Channel} (hpq : l = p ++ ch :: q) {b : Nat} (hb : b < ch.nbins) :
    (l.map H).flatten.getD ((p.map (·.nbins)).sum + b) 0 = (H ch).getD b 0 := by
  subst hpq
  induction p with
  | nil =>
    simp only [List.nil_append, List.map_cons, List.flatten_cons, List.map_nil, List.sum_nil, zero_add]
    rw [List.getD_append _ _ _ _ (by rw [hl ch (by simp)]; exact hb)]
  | cons a p ih =>
    have h1 := hl a (by simp)
    simp only [List.cons_append, List.map_cons, List.flatten_cons, List.sum_cons]
    rw [List.getD_append_right _ _ _ _ (by omega), ← ih (fun c hc => hl c (by simp [hc]))]
    congr 1
    omega

theorem mergedCounts_added (m : Mdl n P) (names : List String) (counts : List ℝ) (G : Channel → List ℝ)
    (l : List Channel) (hG : ∀ c ∈ l, m.channelSlice counts c.name = .ok (G c)) :
    m.mergedCounts names counts l true =
      .ok ((l.filter (fun c => decide (c.name ∉ names))).map G).flatten := by
  induction l with
  | nil => rfl
  | cons a l ih =>
    have ih := ih fun c hc => hG c (by simp [hc])
    rw [mergedCounts]
    by_cases ha : a.name ∈ names
    · rw [if_neg (by simpa using ha), List.filter_cons_of_neg (by simpa using ha)]
      simpa using ih
    · rw [if_pos ha, List.filter_cons_of_pos (by simpa using ha), hG a (by simp), bind_ok, ih]
      simp

theorem mergedCounts_eq (m : Mdl n P) (names : List String) (counts : List ℝ) (G : Channel → List ℝ)
    {parts : List (List ℝ)} (hparts : names.mapM (m.channelSlice counts) = .ok parts)
    (pre : List Channel) (hpre : ∀ c ∈ pre, c.name ∉ names) (c0 : Channel) (hc0 : c0.name ∈ names)
    (post : List Channel) (hG : ∀ c ∈ pre ++ c0 :: post, m.channelSlice counts c.name = .ok (G c)) :
    m.mergedCounts names counts (pre ++ c0 :: post) false =
      .ok ((pre.map G).flatten ++ (parts.flatten ++
        ((post.filter (fun c => decide (c.name ∉ names))).map G).flatten)) := by
  induction pre with
  | nil =>
    rw [List.nil_append, mergedCounts, if_neg (by simpa using hc0)]
    simp only [Bool.false_eq_true, if_false]
    rw [hparts, bind_ok, mergedCounts_added m names counts G post fun c hc => hG c (by simp [hc])]
    simp
  | cons a pre ih =>
    have ih := ih (fun c hc => hpre c (by simp [hc])) fun c hc => hG c (by
      rw [List.cons_append]; exact List.mem_cons_of_mem _ hc)
    rw [List.cons_append, mergedCounts, if_pos (hpre a (by simp)), hG a (by simp), bind_ok, ih]
    simp

theorem asList_getD {l : List ℝ} {k : Nat} (h : l.length = k) : asList (fun b => l.getD b 0) k = l := by
  subst h
  refine List.ext_getElem (by simp [asList]) fun i h1 h2 => ?_
  simp [asList, h2]

/-- The counts of the merged dataset. -/
theorem MergedInto.counts (h : MergedInto m names mergedName ms m' merged keys pre c0 post)
    (hM : Mergeable m kind names mergedName obs ms) {counts : List ℝ} (hl : counts.length = m.nbins) :
    ∃ c, m.mergeData kind names m' counts = .ok (some c) ∧ c.length = m'.nbins ∧
      SameBins m m' names ms pre (fun b => counts.getD b 0) (fun b => c.getD b 0) := by
  classical
  have hn' := h.names_nodup hM
  let off : Channel → Nat := fun ch => (m.offsets.get? ch.name).getD 0
  have hoff : ∀ ch p q, m.channels = p ++ ch :: q → off ch = (p.map (·.nbins)).sum := by
    intro ch p q hp
    simp only [off, offset_eq hM.channels hp, Option.getD_some]
  let f : Nat → ℝ := fun b => counts.getD b 0
  let G : Channel → List ℝ := fun ch => (List.range ch.nbins).map fun b => f (off ch + b)
  have hlen : ∀ c, (G c).length = c.nbins := by intro c; simp [G]
  have hG : ∀ ch ∈ m.channels, m.channelSlice counts ch.name = .ok (G ch) := by
    intro ch hc
    obtain ⟨p, q, hp⟩ := List.append_of_mem hc
    have := slice_at hM.channels f hp
    rw [asList_getD hl] at this
    rw [this]
    simp only [G, hoff ch p q hp]
  have hparts : names.mapM (m.channelSlice counts) = .ok (ms.map G) := by
    refine mapM_ok_iff.2 ?_
    rw [List.forall₂_map_right_iff]
    refine hM.selected.imp fun nm ch hc => ?_
    obtain ⟨hc, rfl⟩ := hc
    exact hG ch hc
  let H : Channel → List ℝ := fun ch => if ch.name = mergedName then (ms.map G).flatten else G ch
  have hHm : H merged = (ms.map G).flatten := by simp only [H, h.name, if_true]
  have hHo : ∀ ch ∈ m.channels, ch.name ∉ names → H ch = G ch := by
    intro ch hc hcn
    simp only [H, if_neg (hM.fresh ch hc hcn)]
  have hmm := mergedCounts_eq m names counts G hparts pre h.isPre c0 h.isC0 post (by rw [← h.split]; exact hG)
  rw [← h.split] at hmm
  have hpreM : ∀ c ∈ pre, c ∈ m.channels := fun c hc => by rw [h.split]; simp [hc]
  have hpostM : ∀ c ∈ post, c ∈ m.channels := fun c hc => by rw [h.split]; simp [hc]
  have hflat : (pre.map G).flatten ++ ((ms.map G).flatten ++
        ((post.filter (fun c => decide (c.name ∉ names))).map G).flatten) = (m'.channels.map H).flatten := by
    rw [h.channels]
    simp only [List.map_append, List.map_cons, List.flatten_append, List.flatten_cons, hHm]
    congr 1
    · congr 1
      refine List.map_congr_left fun c hc => ?_
      rw [hHo c (hpreM c hc) (h.isPre c hc)]
    · congr 2
      refine List.map_congr_left fun c hc => ?_
      obtain ⟨h1, h2⟩ := List.mem_filter.1 hc
      rw [hHo c (hpostM c h1) (by simpa using h2)]
  have hHlen : ∀ c ∈ m'.channels, (H c).length = c.nbins := by
    intro c hc
    rw [h.channels] at hc
    rcases List.mem_append.1 hc with hc | hc
    · rw [hHo c (hpreM c hc) (h.isPre c hc), hlen]
    · rcases List.mem_cons.1 hc with rfl | hc
      · rw [hHm, flatten_length_sum (fun c _ => hlen c), h.nbins]
      · obtain ⟨h1, h2⟩ := List.mem_filter.1 hc
        rw [hHo c (hpostM c h1) (by simpa using h2), hlen]
  have hcl : (m'.channels.map H).flatten.length = m'.nbins := by
    rw [flatten_length_sum hHlen, nbins_eq_sum]
  refine ⟨(m'.channels.map H).flatten, ?_, hcl, ?_, ?_⟩
  · obtain ⟨first, _, hcheck⟩ := hM.check
    unfold mergeData
    rw [hcheck, bind_ok]
    simp only
    rw [hmm, bind_ok, hflat, if_neg (by rw [hcl]; simp)]
    rfl
  · intro ch p q p' q' hcn hp hp' b hb
    have hcm : ch ∈ m.channels := by rw [hp]; simp
    rw [getD_flatten_channels hHlen hp' hb, hHo ch hcm hcn]
    simp only [G, f, hoff ch p q hp]
    rw [List.getD_eq_getElem _ _ (by simpa using hb)]
    simp
  · intro ch p q p1 q1 h1 hp b hb
    have hlt : (p1.map (·.nbins)).sum + b < merged.nbins := by rw [h.nbins, h1]; exact getD_sum_lt hb
    rw [getD_flatten_channels hHlen h.channels hlt, hHm,
      getD_flatten_channels (l := ms) (fun c _ => hlen c) h1 hb]
    simp only [G, f, hoff ch p q hp]
    rw [List.getD_eq_getElem _ _ (by simpa using hb)]
    simp

end
end Verif

/-! ### The original model after the merge -/

namespace Verif
open Merge Mdl

/-- A channel of the original model after the merge. -/
def mutatedChannel (done : List (Entry × Sample)) (ch : Channel) : Channel :=
  { ch with samples := ch.samples.map (mutatedSample done ch.name) }

theorem mutated_eq (chans : List Channel) (done : List (Entry × Sample)) :
    mutated chans done = chans.map (mutatedChannel done) := rfl

theorem find_mutated (chans : List Channel) (done : List (Entry × Sample)) (nm : String) :
    (mutated chans done).find? (fun c => c.name == nm) =
      (chans.find? (fun c => c.name == nm)).map (mutatedChannel done) := by
  rw [mutated_eq, List.find?_map]; rfl

theorem getChannel_mutated (chans : List Channel) (done : List (Entry × Sample)) (nm : String) :
    getChannel (mutated chans done) nm = (getChannel chans nm).map (mutatedChannel done) := by
  unfold getChannel
  rw [find_mutated]
  cases chans.find? (fun c => c.name == nm) <;> rfl

theorem mapM_map_result {α β γ : Type} (l : List α) (f : α → Except PyErr β) (f' : α → Except PyErr γ) (g : β → γ)
    (h : ∀ a ∈ l, f' a = (f a).map g) : l.mapM f' = (l.mapM f).map (List.map g) := by
  induction l with
  | nil => rfl
  | cons a l ih =>
    rw [List.mapM_cons, List.mapM_cons, h a (by simp), ih fun b hb => h b (by simp [hb])]
    cases f a with
    | error e => rfl
    | ok b => cases l.mapM f <;> rfl

theorem longest_map (done : List (Entry × Sample)) (l : List Channel) :
    longest (l.map (mutatedChannel done)) = (longest l).map (mutatedChannel done) := by
  have key : ∀ (l : List Channel) (o : Option Channel),
      (l.map (mutatedChannel done)).foldl (fun l ch => match l with
        | none => some ch
        | some c => if ch.samples.length > c.samples.length then some ch else some c) (o.map (mutatedChannel done)) =
      (l.foldl (fun l ch => match l with
        | none => some ch
        | some c => if ch.samples.length > c.samples.length then some ch else some c) o).map (mutatedChannel done) := by
    intro l
    induction l with
    | nil => intro o; rfl
    | cons a l ih =>
      intro o
      rw [List.map_cons, List.foldl_cons, List.foldl_cons, ← ih]
      congr 1
      cases o with
      | none => rfl
      | some c =>
        simp only [Option.map_some, mutatedChannel, List.length_map]
        split_ifs <;> rfl
  exact key l none

theorem check_mutated (kind : String → ChKind) (chans : List Channel) (done : List (Entry × Sample))
    (names : List String) : (Merge.check kind (mutated chans done) names).map Option.isSome =
      (Merge.check kind chans names).map Option.isSome := by
  have hany : ∀ nm, (mutated chans done).any (·.name == nm) = chans.any (·.name == nm) := by
    intro nm; rw [mutated_eq, List.any_map]; rfl
  unfold Merge.check
  by_cases h1 : names = []
  · simp only [h1, if_true]
  rw [if_neg h1, if_neg h1]
  simp only [hany]
  by_cases h2 : names.tail.any (fun nm => !(chans.any (·.name == nm))) = true
  · rw [if_pos h2, if_pos h2]
  rw [if_neg h2, if_neg h2, mapM_map_result names (getChannel chans) (getChannel (mutated chans done))
    (mutatedChannel done) (fun nm _ => getChannel_mutated chans done nm)]
  cases names.mapM (getChannel chans) with
  | error e => rfl
  | ok ms =>
    simp only [Except.map, bind_ok]
    have hr : (ms.map (mutatedChannel done)).any (fun c => (kind c.name).isRange) =
        ms.any (fun c => (kind c.name).isRange) := by rw [List.any_map]; rfl
    rw [hr]
    by_cases h3 : ms.any (fun c => (kind c.name).isRange) = true
    · rw [if_pos h3, if_pos h3]
    · rw [if_neg h3, if_neg h3, longest_map]
      cases longest ms <;> rfl

section
variable {n P : Nat}

theorem chanState_mutated (m : Mdl n P) (done : List (Entry × Sample)) :
    Mdl.chanState { m with channels := mutated m.channels done } = m.chanState := by
  have hP : Mdl.nbinsPoisson { m with channels := mutated m.channels done } = m.nbinsPoisson := by
    unfold nbinsPoisson
    simp only [mutated_eq, List.filter_map, List.map_map]
    rfl
  unfold chanState
  rw [hP]
  simp only [mutated_eq, List.foldl_map]
  congr 1
  funext st ch
  simp only [chanStep, mutatedChannel, List.length_map]
  rfl

theorem slice_mutated (m : Mdl n P) (done : List (Entry × Sample)) (arr : List ℝ) (nm : String) :
    Mdl.channelSlice { m with channels := mutated m.channels done } arr nm = m.channelSlice arr nm := by
  unfold channelSlice offsets
  rw [chanState_mutated]
  simp only [find_mutated]
  cases m.channels.find? (fun c => c.name == nm) <;> rfl

theorem mergedCounts_mutated (m : Mdl n P) (done : List (Entry × Sample)) (names : List String) (counts : List ℝ)
    (l : List Channel) : ∀ added, Mdl.mergedCounts { m with channels := mutated m.channels done } names counts
      (mutated l done) added = m.mergedCounts names counts l added := by
  induction l with
  | nil => intro added; rfl
  | cons a l ih =>
    intro added
    have e0 : mutated (a :: l) done = mutatedChannel done a :: mutated l done := rfl
    rw [e0, mergedCounts, mergedCounts, ih, ih]
    have e : (mutatedChannel done a).name = a.name := rfl
    rw [e, slice_mutated]
    have : names.mapM (Mdl.channelSlice { m with channels := mutated m.channels done } counts) =
        names.mapM (m.channelSlice counts) := by
      congr 1; funext nm; exact slice_mutated m done counts nm
    rw [this]

/-- The data can be merged after the model has been. -/
theorem mergeData_mutated (m : Mdl n P) (kind : String → ChKind) (done : List (Entry × Sample))
    (names : List String) (m' : Mdl n P) (counts : List ℝ) :
    Mdl.mergeData { m with channels := mutated m.channels done } kind names m' counts =
      m.mergeData kind names m' counts := by
  have hc := check_mutated kind m.channels done names
  have hm := mergedCounts_mutated m done names counts m.channels false
  unfold mergeData
  simp only [hm]
  revert hc
  cases Merge.check kind (mutated m.channels done) names with
  | error e =>
    cases Merge.check kind m.channels names with
    | error e' => intro h; simp only [Except.map] at h; rw [Except.error.inj h]
    | ok o => intro h; cases h
  | ok o =>
    cases Merge.check kind m.channels names with
    | error e' => intro h; cases h
    | ok o' =>
      intro h
      simp only [Except.map, Except.ok.injEq] at h
      cases o <;> cases o' <;> simp_all

end
end Verif
