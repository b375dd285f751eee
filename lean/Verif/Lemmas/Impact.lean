import Verif.Lemmas.Core
import Mathlib.LinearAlgebra.Vandermonde
import Mathlib.Data.List.GetD
/-! Lemmas about impact interpolation and the internal impact arrays. -/
namespace Verif
namespace Sample

theorem interp_spec {pos imps c : List ℝ} (h : interpolateImpact pos imps = .ok c) :
    c.length = pos.length ∧ ∀ i (hi : i < pos.length),
      ∑ k ∈ Finset.range pos.length, c.getD k 0 * pos[i] ^ (k + 1) = imps.getD i 0 := by
  unfold interpolateImpact at h
  split_ifs at h with h1
  simp only at h
  split_ifs at h with h2
  have h := Except.ok.inj h
  set V : Matrix (Fin pos.length) (Fin pos.length) ℝ := fun i j => pos[i] ^ (j.1 + 1) with hV
  set u : Fin pos.length → ℝ := fun i => imps.getD i 0 with hu
  subst h
  refine ⟨by simp, fun i hi => ?_⟩
  have hdet : IsUnit V.det := isUnit_iff_ne_zero.2 h2
  have hsol : V.mulVec (V⁻¹.mulVec u) = u := by
    rw [Matrix.mulVec_mulVec, Matrix.mul_nonsing_inv _ hdet, Matrix.one_mulVec]
  have := congrFun hsol ⟨i, hi⟩
  rw [Matrix.mulVec, dotProduct] at this
  rw [Finset.sum_range]
  rw [show imps.getD i 0 = u ⟨i, hi⟩ from rfl, ← this]
  refine Finset.sum_congr rfl fun k _ => ?_
  rw [List.getD_eq_getElem?_getD, List.getElem?_ofFn]
  simp [hV, mul_comm]

theorem interp_ok {pos imps : List ℝ} (hl : pos.length = imps.length) (hn : pos.Nodup)
    (h0 : (0 : ℝ) ∉ pos) : ∃ c, interpolateImpact pos imps = .ok c := by
  unfold interpolateImpact
  rw [if_neg (by simpa using hl)]
  simp only
  rw [if_neg]
  · exact ⟨_, rfl⟩
  have e : (fun i j => pos[i] ^ (j.1 + 1) : Matrix (Fin pos.length) (Fin pos.length) ℝ)
      = Matrix.diagonal (fun i : Fin pos.length => pos[i]) *
        Matrix.vandermonde (fun i : Fin pos.length => pos[i]) := by
    ext i j
    rw [Matrix.diagonal_mul, Matrix.vandermonde_apply, pow_succ']
  rw [e, Matrix.det_mul, Matrix.det_diagonal]
  refine mul_ne_zero (Finset.prod_ne_zero_iff.2 fun i _ hz => h0 ?_) ?_
  · rw [← hz]; exact List.getElem_mem _
  · rw [Matrix.det_vandermonde_ne_zero_iff]
    exact fun i j hij => Fin.ext ((List.Nodup.getElem_inj_iff hn).1 hij)

end Sample
end Verif

namespace Verif
namespace Sample

/-- The shape a sample must have in a channel of `nb` bins (`Sample.load_dict` and
`Model.load_dict` check the yields; the per-bin impacts must have the same length). -/
def WellShaped (s : Sample) (nb : Nat) : Prop :=
  s.nominal_yields.length = nb ∧ ∀ par l, s.impacts.get? par = some (.perBin l) → l.length = nb

theorem impact_length {s : Sample} {nb : Nat} (hw : s.WellShaped nb) {par : String} {v : ℝ}
    {r : List ℝ} (h : s.impact par v = .ok r) : r.length = nb := by
  unfold impact at h
  split at h
  · simpa [hw.1] using (congrArg List.length (Except.ok.inj h)).symm
  · next l hl =>
    rw [← (mapM_ok_iff.1 h).length_eq]; exact hw.2 _ _ hl
  · obtain ⟨y, _, h⟩ := bind_eq_ok.1 h
    simpa [hw.1] using (congrArg List.length (Except.ok.inj h)).symm
  · simpa [hw.1] using (congrArg List.length (Except.ok.inj h)).symm

theorem mapM_getD {α β : Type} {f : α → Except PyErr β} {l : List α} {r : List β} {d : β}
    (h : l.mapM f = .ok r) : r.length = l.length ∧ ∀ i (hi : i < l.length),
      f l[i] = .ok (r.getD i d) := by
  have h := mapM_ok_iff.1 h
  refine ⟨h.length_eq.symm, fun i hi => ?_⟩
  have := (List.forall₂_iff_get.1 h).2 i hi (h.length_eq ▸ hi)
  simp only [List.get_eq_getElem] at this
  rw [this, List.getD_eq_getElem _ _ (h.length_eq ▸ hi)]

theorem coeffRows_spec {isLog : Bool} {vars : List ℝ} {imps : List (List ℝ)} {rows : List (List ℝ)}
    {nb : Nat} (hlen : imps.length = vars.length) (hne : 0 < vars.length)
    (hnb : ∀ r ∈ imps, r.length = nb) (h : coeffRows isLog vars imps = .ok rows) :
    rows.length = nb ∧ ∀ b < nb, ∀ i (hi : i < vars.length),
      ∑ k ∈ Finset.range vars.length, (rows.getD b []).getD k 0 * vars[i] ^ (k + 1)
        = impactVal isLog ((imps.getD i []).getD b 0) := by
  unfold coeffRows at h
  have hh : (imps.headD []).length = nb := by
    cases imps with
    | nil => simp at hlen; omega
    | cons a l => exact hnb a (by simp)
  rw [hh] at h
  obtain ⟨h1, h2⟩ := mapM_getD (d := []) h
  rw [List.length_range] at h1
  refine ⟨h1, fun b hb i hi => ?_⟩
  have h3 := h2 b (by simpa using hb)
  rw [List.getElem_range] at h3
  have := (interp_spec h3).2 i hi
  rw [this, List.getD_eq_getElem _ _ (by simpa [hlen] using hi), List.getElem_map,
    List.getD_eq_getElem imps _ (by rw [hlen]; exact hi)]

theorem impactCoefficients_spec {s : Sample} {nb w : Nat} (hw : s.WellShaped nb) {par : String}
    {variations : Option (List ℝ)} {isLog : Bool} {c : Coeffs}
    (hp : (s.posVars par variations).length = w) (hn : (s.negVars par variations).length = w)
    (h : s.impactCoefficients par variations isLog = .ok c) :
    0 < w ∧ c.npos = w ∧ c.nneg = w ∧ c.pos.length = nb ∧ c.neg.length = nb ∧
    (∀ v ∈ s.posVars par variations, v ≠ 0 → ∃ imp, s.impact par v = .ok imp ∧ ∀ b < nb,
      ∑ k ∈ Finset.range w, (c.pos.getD b []).getD k 0 * v ^ (k + 1) = impactVal isLog (imp.getD b 0)) ∧
    (∀ v ∈ s.negVars par variations, v ≠ 0 → ∃ imp, s.impact par v = .ok imp ∧ ∀ b < nb,
      ∑ k ∈ Finset.range w, (c.neg.getD b []).getD k 0 * v ^ (k + 1) = impactVal isLog (imp.getD b 0)) := by
  unfold impactCoefficients at h
  simp only at h
  generalize s.posVars par variations = pv at *
  generalize s.negVars par variations = nv at *
  obtain ⟨pi, hpi, h1⟩ := bind_eq_ok.1 h
  clear h
  obtain ⟨ni, hni, h⟩ := bind_eq_ok.1 h1
  clear h1
  obtain ⟨lp, gp⟩ := mapM_getD (d := []) hpi
  obtain ⟨ln, gn⟩ := mapM_getD (d := []) hni
  have sp : ∀ (vs : List ℝ) (is : List (List ℝ)) (hvs : vs.mapM (s.impact par) = .ok is),
      ∀ r ∈ is, r.length = nb := by
    intro vs is hvs r hr
    obtain ⟨i, hi, rfl⟩ := List.mem_iff_getElem.1 hr
    obtain ⟨l, g⟩ := mapM_getD (d := []) hvs
    have := g i (by omega)
    rw [List.getD_eq_getElem _ _ hi] at this
    exact impact_length hw this
  have short : ∀ (v : ℝ) (imp : List ℝ), v ≠ 0 → imp.length = nb → ∀ b < nb,
      ∑ k ∈ Finset.range 1, ((shortRows isLog v imp).getD b []).getD k 0 * v ^ (k + 1)
        = impactVal isLog (imp.getD b 0) := by
    intro v imp hv hl b hb
    rw [Finset.sum_range_one, shortRows,
      List.getD_eq_getElem (List.map _ imp) _ (by simpa [hl] using hb),
      List.getElem_map, List.getD_eq_getElem imp _ (by omega)]
    simp [hv]
  have long : ∀ (vs : List ℝ) (is : List (List ℝ)) (rows : List (List ℝ)),
      vs.mapM (s.impact par) = .ok is → vs.length = w → 0 < w → coeffRows isLog vs is = .ok rows →
      rows.length = nb ∧ ∀ v ∈ vs, v ≠ 0 → ∃ imp, s.impact par v = .ok imp ∧ ∀ b < nb,
        ∑ k ∈ Finset.range w, (rows.getD b []).getD k 0 * v ^ (k + 1) = impactVal isLog (imp.getD b 0) := by
    intro vs is rows hvs hl hpos hr
    obtain ⟨l, g⟩ := mapM_getD (d := []) hvs
    obtain ⟨h1, h2⟩ := coeffRows_spec l (by omega) (sp vs is hvs) hr
    refine ⟨h1, fun v hv _ => ?_⟩
    obtain ⟨i, hi, rfl⟩ := List.mem_iff_getElem.1 hv
    exact ⟨_, g i hi, fun b hb => by rw [← h2 b hb i hi, hl]⟩
  split at h
  · next v i nv0 nvs ni0 nis =>
    have hw1 : w = 1 := by simpa using hp.symm
    subst hw1
    have hnvs : nvs = [] := by simpa using hn
    subst hnvs
    have hg := Except.ok.inj h
    subst hg
    have e1 := gp 0 (by simp)
    have e2 := gn 0 (by simp)
    simp only [List.getElem_cons_zero, List.getD_cons_zero] at e1 e2
    have l1 := impact_length hw e1
    have l2 := impact_length hw e2
    refine ⟨one_pos, rfl, rfl, by simp [shortRows, l1], by simp [shortRows, l2], ?_, ?_⟩
    · intro v' hv' h0
      have : v' = v := by simpa using hv'
      subst this
      exact ⟨_, e1, short v' i h0 l1⟩
    · intro v' hv' h0
      have : v' = nv0 := by simpa using hv'
      subst this
      exact ⟨_, e2, short v' ni0 h0 l2⟩
  · cases h
  · cases h
  · cases h
  · have hw0 : 0 < w := by
      rcases Nat.eq_zero_or_pos w with rfl | h0
      · exfalso
        have := List.eq_nil_of_length_eq_zero hp
        simp_all
      · exact h0
    obtain ⟨p, hp1, hg⟩ := bind_eq_ok.1 h
    obtain ⟨q, hq1, hg⟩ := bind_eq_ok.1 hg
    have hg := Except.ok.inj hg
    subst hg
    obtain ⟨a1, a2⟩ := long pv pi p hpi hp hw0 hp1
    obtain ⟨b1, b2⟩ := long nv ni q hni hn hw0 hq1
    exact ⟨hw0, hp, hn, a1, b1, a2, b2⟩

end Sample
end Verif

namespace Verif

theorem flatIdx_decode {B P nv s b p v : Nat} (hb : b < B) (hp : p < P) (hv : v < nv) :
    flatIdx B P nv s b p v % nv = v ∧ flatIdx B P nv s b p v / nv % P = p ∧
    flatIdx B P nv s b p v / nv / P % B = b ∧ flatIdx B P nv s b p v / nv / P / B = s := by
  have aux : ∀ q r m : Nat, r < m → (q * m + r) / m = q ∧ (q * m + r) % m = r := by
    intro q r m h
    have hm : 0 < m := by omega
    constructor
    · rw [Nat.add_comm, Nat.add_mul_div_right _ _ hm, Nat.div_eq_of_lt h, Nat.zero_add]
    · rw [Nat.add_comm, Nat.add_mul_mod_self_right, Nat.mod_eq_of_lt h]
  unfold flatIdx
  rw [(aux _ _ _ hv).1, (aux _ _ _ hv).2, (aux _ _ _ hp).1, (aux _ _ _ hp).2, (aux _ _ _ hb).1,
    (aux _ _ _ hb).2]
  exact ⟨rfl, rfl, rfl, rfl⟩

theorem assignSlice_at {B P nv s p w : Nat} {rows : List (List ℝ)} {rw' : Nat} {buf : Nat → ℝ}
    {s' b p' v : Nat} (hb : b < B) (hp : p' < P) (hv : v < nv) :
    assignSlice B P nv s p w rows rw' buf (flatIdx B P nv s' b p' v) =
      if s' = s ∧ p' = p ∧ v < w then (rows.getD b []).getD (if rw' = 1 then 0 else v) 0
      else buf (flatIdx B P nv s' b p' v) := by
  obtain ⟨h1, h2, h3, h4⟩ := flatIdx_decode (s := s') hb hp hv
  simp only [assignSlice, h1, h2, h3, h4]

theorem nvar_foldl {cs : List Sample.Coeffs} {w : Nat} (h : ∀ c ∈ cs, c.npos = w ∧ c.nneg = w)
    (nv : Nat) : cs.foldl (fun nv c => if c.npos > nv ∨ c.nneg > nv then max c.npos c.nneg else nv) nv
      = if cs = [] then nv else max nv w := by
  induction cs generalizing nv with
  | nil => rfl
  | cons c cs ih =>
    rw [List.foldl_cons, ih (fun c hc => h c (by simp [hc])), (h c (by simp)).1, (h c (by simp)).2]
    simp only [List.cons_ne_nil, if_false, or_self, max_self]
    split_ifs <;> omega

theorem storeCoeffs_inv {channels : List Channel} {B P : Nat} {variations : Option (List ℝ)}
    {isLog : Bool} {buf buf' : Buf} {p s : Nat} {par : String}
    (h : storeCoeffs channels B P variations isLog buf p par s = .ok buf') :
    ∃ cs wp wn, channels.mapM (fun ch => ch.coeffs s par variations isLog) = .ok cs ∧
      (∀ c ∈ cs, c.npos = wp ∧ c.nneg = wn) ∧
      buf' = let nvar := cs.foldl (fun nv c => if c.npos > nv ∨ c.nneg > nv then max c.npos c.nneg else nv)
                buf.nvar
        ⟨nvar, assignSlice B P nvar s p wp (cs.map (·.pos)).flatten wp buf.pos,
          assignSlice B P nvar s p wp (cs.map (·.neg)).flatten wn buf.neg⟩ := by
  unfold storeCoeffs at h
  obtain ⟨cs, hcs, h⟩ := bind_eq_ok.1 h
  simp only at h
  split_ifs at h with h1 h2 h3
  all_goals (first | cases h; done | skip)
  refine ⟨cs, (cs.headD ⟨0, [], 0, []⟩).npos, (cs.headD ⟨0, [], 0, []⟩).nneg, hcs, ?_,
    (Except.ok.inj h).symm⟩
  intro c hc
  simp only [List.any_eq_true, not_exists, not_and, Bool.or_eq_true, bne_iff_ne, not_or,
    Decidable.not_not] at h1
  exact h1 c hc

theorem Channel.coeffs_length {ch : Channel} {s : Nat} {par : String} {variations : Option (List ℝ)}
    {isLog : Bool} {c : Sample.Coeffs} {w : Nat}
    (hs : ∀ smp ∈ ch.samples, smp.WellShaped ch.nbins ∧
      (smp.posVars par variations).length = w ∧ (smp.negVars par variations).length = w)
    (h : ch.coeffs s par variations isLog = .ok c) :
    c.pos.length = ch.nbins ∧ c.neg.length = ch.nbins := by
  unfold Channel.coeffs at h
  split at h
  · next smp hsmp =>
    obtain ⟨h1, h2, h3⟩ := hs smp (List.mem_of_getElem? hsmp)
    have := Sample.impactCoefficients_spec h1 h2 h3 h
    exact ⟨this.2.2.2.1, this.2.2.2.2.1⟩
  · have := Except.ok.inj h
    subst this
    simp

theorem forall₂_append_left {α β : Type} {R : α → β → Prop} {l1 l2 : List α} {cs : List β}
    (h : List.Forall₂ R (l1 ++ l2) cs) :
    ∃ c1 c2, List.Forall₂ R l1 c1 ∧ List.Forall₂ R l2 c2 ∧ cs = c1 ++ c2 := by
  induction l1 generalizing cs with
  | nil => exact ⟨[], cs, .nil, h, rfl⟩
  | cons a l ih =>
    cases h with
    | cons h1 h2 =>
      obtain ⟨c1, c2, a1, a2, rfl⟩ := ih h2
      exact ⟨_ :: c1, c2, .cons h1 a1, a2, rfl⟩

theorem flatten_getD_mid {α : Type} (d : α) (l1 : List (List α)) (a : List α) (l2 : List (List α))
    (k b : Nat) (hk : l1.flatten.length = k) (hb : b < a.length) :
    (l1 ++ a :: l2).flatten.getD (k + b) d = a.getD b d := by
  subst hk
  simp only [List.flatten_append, List.flatten_cons]
  rw [List.getD_append_right _ _ _ _ (by omega), Nat.add_sub_cancel_left,
    List.getD_append _ _ _ _ hb]

namespace Mdl
variable {n P : Nat}

theorem chanStep_max_attained (nP : Nat) (l : List Channel) (st : ChanState) (s : Nat)
    (h : s < (l.foldl (chanStep nP) st).maxSamples) :
    s < st.maxSamples ∨ ∃ ch ∈ l, s < ch.samples.length := by
  induction l generalizing st with
  | nil => exact .inl h
  | cons a l ih =>
    rcases ih (chanStep nP st a) h with h | ⟨ch, hc, h⟩
    · simp only [chanStep] at h
      split_ifs at h
      · exact .inr ⟨a, by simp, h⟩
      · exact .inl h
    · exact .inr ⟨ch, by simp [hc], h⟩

theorem lt_maxSamples (m : Mdl n P) {s : Nat} (h : s < m.maxSamples) :
    ∃ ch ∈ m.channels, s < ch.samples.length := by
  rcases chanStep_max_attained _ _ _ _ h with h | h
  · exact absurd h (Nat.not_lt_zero _)
  · exact h

/-- Every sample has the shape of its channel and, for each NP, `w` positive and `w` negative
variations. -/
def Uniform (m : Mdl n P) (w : Nat) : Prop :=
  ∀ ch ∈ m.channels, ∀ smp ∈ ch.samples, smp.WellShaped ch.nbins ∧ ∀ p : Fin P,
    (smp.posVars (m.nps p).name m.variations).length = w ∧
    (smp.negVars (m.nps p).name m.variations).length = w

/-- Content of the arrays for the pairs already processed. -/
def BufInv (m : Mdl n P) (w : Nat) (done : List (Fin P × Nat)) (buf : Buf) : Prop :=
  (done = [] → buf = ⟨1, fun _ => 0, fun _ => 0⟩) ∧ (done ≠ [] → buf.nvar = w ∧ 0 < w) ∧
  ∀ q ∈ done, ∃ cs, m.channels.mapM (fun ch => ch.coeffs q.2 (m.nps q.1).name m.variations
      (!m.use_linear_nps)) = .ok cs ∧ ∀ b < m.nbins, ∀ v < w,
    buf.pos (flatIdx m.nbins P w q.2 b q.1 v) = ((cs.map (·.pos)).flatten.getD b []).getD v 0 ∧
    buf.neg (flatIdx m.nbins P w q.2 b q.1 v) = ((cs.map (·.neg)).flatten.getD b []).getD v 0

theorem bufInv_step {m : Mdl n P} {w : Nat} (hu : m.Uniform w) {done : List (Fin P × Nat)}
    {buf buf' : Buf} (hi : m.BufInv w done buf) (q : Fin P × Nat) (hq : q.2 < m.maxSamples)
    (h : storeCoeffs m.channels m.nbins P m.variations (!m.use_linear_nps) buf q.1.1
      (m.nps q.1).name q.2 = .ok buf') : m.BufInv w (done ++ [q]) buf' := by
  obtain ⟨cs, wp, wn, hcs, hw, hb⟩ := storeCoeffs_inv h
  -- the widths are `w`
  obtain ⟨ch, hch, hlt⟩ := m.lt_maxSamples hq
  obtain ⟨i, hi', hchi⟩ := List.mem_iff_getElem.1 hch
  obtain ⟨lcs, gcs⟩ := Sample.mapM_getD (d := ⟨0, [], 0, []⟩) hcs
  have hc := gcs i hi'
  rw [List.getD_eq_getElem cs _ (by omega)] at hc
  have hmem : cs[i] ∈ cs := List.getElem_mem _
  have hspec : 0 < w ∧ cs[i].npos = w ∧ cs[i].nneg = w := by
    have hu' := hu ch hch ch.samples[q.2] (List.getElem_mem _)
    rw [hchi] at hc
    simp only [Channel.coeffs, List.getElem?_eq_getElem hlt] at hc
    have := Sample.impactCoefficients_spec hu'.1 (hu'.2 q.1).1 (hu'.2 q.1).2 hc
    exact ⟨this.1, this.2.1, this.2.2.1⟩
  have hwp : wp = w := by rw [← (hw _ hmem).1, hspec.2.1]
  have hwn : wn = w := by rw [← (hw _ hmem).2, hspec.2.2]
  subst hwn
  subst hwp
  have hne : cs ≠ [] := List.ne_nil_of_mem hmem
  rw [nvar_foldl hw, if_neg hne] at hb
  have hnv : max buf.nvar wp = wp := by
    rcases eq_or_ne done [] with h0 | h0
    · rw [hi.1 h0]; exact max_eq_right hspec.1
    · rw [(hi.2.1 h0).1]; exact max_self _
  rw [hnv] at hb
  simp only at hb
  subst hb
  refine ⟨by simp, fun _ => ⟨rfl, hspec.1⟩, ?_⟩
  intro r hr
  by_cases hrq : r = q
  · subst hrq
    refine ⟨cs, hcs, fun b hb v hv => ?_⟩
    simp only
    have : (if wp = 1 then 0 else v) = v := by split_ifs <;> omega
    rw [assignSlice_at hb r.1.2 hv, assignSlice_at hb r.1.2 hv, this]
    exact ⟨if_pos ⟨rfl, rfl, hv⟩, if_pos ⟨rfl, rfl, hv⟩⟩
  · have hrd : r ∈ done := by simpa [hrq] using hr
    obtain ⟨cs', h1, h2⟩ := hi.2.2 r hrd
    refine ⟨cs', h1, fun b hb v hv => ?_⟩
    have hn' : ¬ (r.2 = q.2 ∧ (r.1 : Nat) = q.1 ∧ v < wp) := fun hh => hrq
      (Prod.ext (Fin.ext hh.2.1) hh.1)
    simp only
    rw [assignSlice_at hb r.1.2 hv, assignSlice_at hb r.1.2 hv, if_neg hn', if_neg hn']
    exact h2 b hb v hv

theorem bufInv_foldlM {m : Mdl n P} {w : Nat} (hu : m.Uniform w) (l done : List (Fin P × Nat))
    (buf buf' : Buf) (hi : m.BufInv w done buf) (hl : ∀ q ∈ l, q.2 < m.maxSamples)
    (h : l.foldlM (fun buf ps => storeCoeffs m.channels m.nbins P m.variations
        (!m.use_linear_nps) buf ps.1.1 (m.nps ps.1).name ps.2) buf = .ok buf') :
    m.BufInv w (done ++ l) buf' := by
  induction l generalizing done buf with
  | nil => simp only [List.foldlM_nil, pure_ok] at h; rw [← Except.ok.inj h]; simpa using hi
  | cons q l ih =>
    rw [List.foldlM_cons] at h
    obtain ⟨b1, h1, h⟩ := bind_eq_ok.1 h
    have := ih (done ++ [q]) b1 (bufInv_step hu hi q (hl q (by simp)) h1)
      (fun r hr => hl r (by simp [hr])) h
    simpa using this

/-- Content of the coefficient arrays of a model with uniform variations. -/
theorem setInternal_coeffs {m : Mdl n P} {w : Nat} (hu : m.Uniform w) (ha : m.use_asym_impacts = true)
    {A : Arrays} (h : m.setInternal = .ok A) {pre post : List Channel} {ch : Channel}
    (hch : m.channels = pre ++ ch :: post) {s : Nat} {smp : Sample} (hs : ch.samples[s]? = some smp)
    (p : Fin P) : ∃ c, smp.impactCoefficients (m.nps p).name m.variations (!m.use_linear_nps) = .ok c ∧
      A.buf.nvar = w ∧ ∀ b < ch.nbins, ∀ v < w,
        A.posAt m.nbins P s ((pre.map (·.nbins)).sum + b) p v = (c.pos.getD b []).getD v 0 ∧
        A.negAt m.nbins P s ((pre.map (·.nbins)).sum + b) p v = (c.neg.getD b []).getD v 0 := by
  unfold setInternal at h
  simp only at h
  split_ifs at h with h0
  · cases h
  simp only [pure_ok, bind_ok, ha, if_true] at h
  obtain ⟨buf, hbuf, h⟩ := bind_eq_ok.1 h
  obtain ⟨syms, _, h⟩ := bind_eq_ok.1 h
  have hA := Except.ok.inj h
  have hmem : ch ∈ m.channels := by rw [hch]; simp
  have hlt : s < m.maxSamples := lt_of_lt_of_le (List.getElem?_eq_some_iff.1 hs).1 (m.samples_le hmem)
  have inv := bufInv_foldlM hu _ [] _ _ ⟨fun _ => rfl, fun h => absurd rfl h, fun q hq => by cases hq⟩
    (by
      intro q hq
      obtain ⟨p', _, hq⟩ := List.mem_flatMap.1 hq
      obtain ⟨s', hs', rfl⟩ := List.mem_map.1 hq
      exact List.mem_range.1 hs') hbuf
  rw [List.nil_append] at inv
  have hin : (p, s) ∈ ((List.finRange P).flatMap fun p => (List.range m.maxSamples).map fun s => (p, s)) :=
    List.mem_flatMap.2 ⟨p, List.mem_finRange p, List.mem_map.2 ⟨s, List.mem_range.2 hlt, rfl⟩⟩
  obtain ⟨cs, hcs, hval⟩ := inv.2.2 _ hin
  obtain ⟨hnv, hw0⟩ := inv.2.1 (fun h0 => by rw [h0] at hin; cases hin)
  have hbufA : A.buf = buf := by rw [← hA]
  -- split the list of coefficients
  have hf := mapM_ok_iff.1 hcs
  rw [hch] at hf
  simp only at hf
  obtain ⟨c1, c2, hc1, hc2, rfl⟩ := forall₂_append_left hf
  cases hc2 with
  | @cons _ c _ c2 hc hc2 =>
  have hun : ∀ ch' ∈ m.channels, ∀ smp ∈ ch'.samples, smp.WellShaped ch'.nbins ∧
      (smp.posVars (m.nps p).name m.variations).length = w ∧
      (smp.negVars (m.nps p).name m.variations).length = w :=
    fun ch' h' smp hsmp => ⟨(hu ch' h' smp hsmp).1, (hu ch' h' smp hsmp).2 p⟩
  have hlen : ∀ (l : List Channel) (cl : List Sample.Coeffs), (∀ x ∈ l, x ∈ m.channels) →
      List.Forall₂ (fun a b => a.coeffs s (m.nps p).name m.variations (!m.use_linear_nps) = .ok b) l cl →
      (cl.map (·.pos)).flatten.length = (l.map (·.nbins)).sum ∧
      (cl.map (·.neg)).flatten.length = (l.map (·.nbins)).sum := by
    intro l cl hx hl
    induction hl with
    | nil => simp
    | cons h1 _ ih =>
      have := ih (fun x hx' => hx x (by simp [hx']))
      have hc := Channel.coeffs_length (hun _ (hx _ (by simp))) h1
      simp [hc.1, hc.2, this.1, this.2]
  have hl1 := hlen pre c1 (fun x hx => by rw [hch]; simp [hx]) hc1
  have hlc := Channel.coeffs_length (hun ch hmem) hc
  refine ⟨c, by simpa only [Channel.coeffs, hs] using hc, by rw [hbufA, hnv], fun b hb v hv => ?_⟩
  have hB : (pre.map (·.nbins)).sum + b < m.nbins := by
    rw [nbins_eq_sum, hch]; simp; omega
  have := hval _ hB v hv
  simp only [Arrays.posAt, Arrays.negAt, hbufA, hnv]
  rw [this.1, this.2]
  simp only [List.map_append, List.map_cons]
  rw [flatten_getD_mid _ _ _ _ _ _ hl1.1 (by omega), flatten_getD_mid _ _ _ _ _ _ hl1.2 (by omega)]
  exact ⟨rfl, rfl⟩

end Mdl
end Verif

namespace Verif
namespace Mdl
variable {n P : Nat}

theorem stackRows_ok' {α : Type} [Zero α] (m : Mdl n P) (f : Sample → Except PyErr (List α))
    (hf : ∀ ch ∈ m.channels, ∀ smp ∈ ch.samples, ∃ r, f smp = .ok r ∧ r.length = ch.nbins) :
    ∃ rows, m.stackRows f = .ok rows := by
  have hrow : ∀ s, ∃ r, (do
      let parts ← m.channels.mapM (fun ch => ch.part s f)
      if parts.flatten.length ≠ m.nbins then throw .valueError
      return parts.flatten : Except PyErr (List α)) = .ok r := by
    intro s
    have hp : ∀ l : List Channel, (∀ ch ∈ l, ch ∈ m.channels) → ∃ parts,
        l.mapM (fun ch => ch.part s f) = .ok parts ∧ parts.flatten.length = (l.map (·.nbins)).sum := by
      intro l hl
      induction l with
      | nil => exact ⟨[], rfl, rfl⟩
      | cons a l ih =>
        obtain ⟨parts, h1, h2⟩ := ih (fun ch hc => hl ch (by simp [hc]))
        obtain ⟨r, hr, hlen⟩ : ∃ r, a.part s f = .ok r ∧ r.length = a.nbins := by
          unfold Channel.part
          cases hs : a.samples[s]? with
          | none => exact ⟨_, rfl, by simp⟩
          | some smp => exact hf a (hl a (by simp)) smp (List.mem_of_getElem? hs)
        exact ⟨r :: parts, by rw [List.mapM_cons, hr, h1]; rfl, by simp [hlen, h2]⟩
    obtain ⟨parts, h1, h2⟩ := hp m.channels (fun _ h => h)
    refine ⟨parts.flatten, ?_⟩
    rw [h1, bind_ok, if_neg (by rw [h2, nbins_eq_sum]; simp)]
    rfl
  choose R hR using hrow
  exact ⟨_, mapM_map_ok (g := R) (fun s _ => hR s)⟩

theorem setInternal_ok (m : Mdl n P) (hu : m.Uniform 1)
    (hord : (m.channels.filter (fun c => !c.gaussian) ++ m.channels.filter (fun c => c.gaussian)) = m.channels)
    (hvar : m.variations = none)
    (himp : ∀ ch ∈ m.channels, ∀ smp ∈ ch.samples, ∀ p : Fin P,
      ∀ v, v = 1 ∨ v ∈ smp.availableVariations (m.nps p).name →
        ∃ r, smp.impact (m.nps p).name v = .ok r) : ∃ A, m.setInternal = .ok A := by
  have hsym : ∃ r, (List.finRange P).mapM (fun p => m.stackRows (fun s => s.symImpact (m.nps p).name)) = .ok r := by
    have : ∀ p : Fin P, ∃ r, m.stackRows (fun s => s.symImpact (m.nps p).name) = .ok r := by
      intro p
      apply stackRows_ok'
      intro ch hc smp hm
      obtain ⟨r, hr⟩ := himp ch hc smp hm p 1 (.inl rfl)
      have hl := Sample.impact_length (hu ch hc smp hm).1 hr
      cases h2 : smp.impact (m.nps p).name (-1) with
      | error e => exact ⟨r, by simp only [Sample.symImpact, hr, h2], hl⟩
      | ok r2 =>
        have hl2 := Sample.impact_length (hu ch hc smp hm).1 h2
        exact ⟨List.zipWith (fun x y => (1 / 2) * (x - y)) r r2, by simp only [Sample.symImpact, hr, h2],
          by simp [hl, hl2]⟩
    choose R hR using this
    exact ⟨_, mapM_map_ok (g := R) (fun p _ => hR p)⟩
  obtain ⟨r, hr⟩ := hsym
  have hco : ∀ (p : Fin P) (s : Nat) (lg : Bool), ∀ ch ∈ m.channels, ∃ c,
      ch.coeffs s (m.nps p).name m.variations lg = .ok c ∧ c.npos = 1 ∧ c.nneg = 1 ∧
        c.pos.length = ch.nbins ∧ c.neg.length = ch.nbins := by
    intro p s lg ch hc
    unfold Channel.coeffs
    rw [hvar]
    cases hs : ch.samples[s]? with
    | none => exact ⟨_, rfl, rfl, rfl, by simp, by simp⟩
    | some smp =>
      have hm := List.mem_of_getElem? hs
      obtain ⟨h1, h2⟩ := hu ch hc smp hm
      obtain ⟨h2, h3⟩ := h2 p
      rw [hvar] at h2 h3
      obtain ⟨v, hv⟩ := List.length_eq_one_iff.1 h2
      obtain ⟨v', hv'⟩ := List.length_eq_one_iff.1 h3
      have m1 : v ∈ smp.availableVariations (m.nps p).name := by
        have : v ∈ smp.posVars (m.nps p).name none := by rw [hv]; simp
        simp only [Sample.posVars, List.mem_insertionSort, List.mem_filter] at this
        exact this.1
      have m2 : v' ∈ smp.availableVariations (m.nps p).name := by
        have : v' ∈ smp.negVars (m.nps p).name none := by rw [hv']; simp
        simp only [Sample.negVars, List.mem_insertionSort, List.mem_filter] at this
        exact this.1
      obtain ⟨r1, hr1⟩ := himp ch hc smp hm p v (.inr m1)
      obtain ⟨r2, hr2⟩ := himp ch hc smp hm p v' (.inr m2)
      refine ⟨⟨1, Sample.shortRows lg v r1, 1, Sample.shortRows lg v' r2⟩, ?_, rfl, rfl, ?_, ?_⟩
      · simp only [Sample.impactCoefficients, hv, hv', List.mapM_cons, List.mapM_nil, hr1, hr2, pure_ok, bind_ok]
      · simp [Sample.shortRows, Sample.impact_length h1 hr1]
      · simp [Sample.shortRows, Sample.impact_length h1 hr2]
  have hst : ∀ (buf : Buf) (q : Fin P × Nat), ∃ buf', storeCoeffs m.channels m.nbins P m.variations
      (!m.use_linear_nps) buf q.1.1 (m.nps q.1).name q.2 = .ok buf' := by
    intro buf q
    have hp : ∀ l : List Channel, (∀ ch ∈ l, ch ∈ m.channels) → ∃ cs,
        l.mapM (fun ch => ch.coeffs q.2 (m.nps q.1).name m.variations (!m.use_linear_nps)) = .ok cs ∧
        (∀ c ∈ cs, c.npos = 1 ∧ c.nneg = 1) ∧
        (cs.map (·.pos)).flatten.length = (l.map (·.nbins)).sum ∧
        (cs.map (·.neg)).flatten.length = (l.map (·.nbins)).sum ∧ (l ≠ [] → cs ≠ []) := by
      intro l hl
      induction l with
      | nil => exact ⟨[], rfl, by simp, rfl, rfl, fun h => absurd rfl h⟩
      | cons a l ih =>
        obtain ⟨cs, h1, h2, h3, h4, _⟩ := ih (fun ch hc => hl ch (by simp [hc]))
        obtain ⟨c, e1, e2, e3, e4, e5⟩ := hco q.1 q.2 (!m.use_linear_nps) a (hl a (by simp))
        refine ⟨c :: cs, by rw [List.mapM_cons, e1, h1]; rfl, ?_, by simp [e4, h3], by simp [e5, h4], by simp⟩
        intro c' hc'
        rcases List.mem_cons.1 hc' with rfl | hc'
        · exact ⟨e2, e3⟩
        · exact h2 c' hc'
    obtain ⟨cs, h1, h2, h3, h4, h5⟩ := hp m.channels (fun _ h => h)
    simp only [storeCoeffs, h1, bind_ok]
    have hany : cs.any (fun c => c.npos != (cs.headD ⟨0, [], 0, []⟩).npos ||
        c.nneg != (cs.headD ⟨0, [], 0, []⟩).nneg) = false := by
      rw [List.any_eq_false]
      intro c hc
      cases cs with
      | nil => cases hc
      | cons c0 cs =>
        have := h2 c0 (by simp)
        have := h2 c hc
        simp_all
    rw [hany]
    have hw : ¬ ((cs.headD ⟨0, [], 0, []⟩).nneg ≠ (cs.headD ⟨0, [], 0, []⟩).npos ∧
        (cs.headD ⟨0, [], 0, []⟩).nneg ≠ 1) := by
      cases cs with
      | nil => simp
      | cons c0 cs => have := h2 c0 (by simp); simp [this.1, this.2]
    rw [if_neg (by simp), if_neg (by rw [h3, h4, nbins_eq_sum]; simp), if_neg hw]
    exact ⟨_, rfl⟩
  have hfold : ∀ (l : List (Fin P × Nat)) (buf : Buf), ∃ buf',
      l.foldlM (fun buf ps => storeCoeffs m.channels m.nbins P m.variations
        (!m.use_linear_nps) buf ps.1.1 (m.nps ps.1).name ps.2) buf = .ok buf' := by
    intro l
    induction l with
    | nil => intro buf; exact ⟨buf, rfl⟩
    | cons q l ih =>
      intro buf
      obtain ⟨b1, h1⟩ := hst buf q
      obtain ⟨b2, h2⟩ := ih b1
      exact ⟨b2, by rw [List.foldlM_cons, h1]; exact h2⟩
  obtain ⟨b, hb⟩ := hfold ((List.finRange P).flatMap fun p => (List.range m.maxSamples).map fun s => (p, s))
    ⟨1, fun _ => 0, fun _ => 0⟩
  simp only [setInternal]
  rw [if_neg (by rw [hord]; simp)]
  by_cases ha : m.use_asym_impacts = true
  · rw [if_pos ha]
    simp only [hb, hr, bind_ok, pure_ok]
    exact ⟨_, rfl⟩
  · rw [if_neg ha]
    simp only [hr, bind_ok, pure_ok]
    exact ⟨_, rfl⟩

end Mdl
end Verif
