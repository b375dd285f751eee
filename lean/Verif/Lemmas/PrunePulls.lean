import Verif.Lemmas.PruneSteps
import Verif.Props.CmdLine
/-! `prune_model --nps`: the pulls at which the NPs are removed. -/
namespace Verif
namespace Markup
open Mdl

theorem asPull_inv {d : Dict Cmd.Val} {pv : Dict (Option ℝ)} (h : d.mapM asPull = .ok pv) :
    pv.keys = d.keys ∧ ∀ k v, d.get? k = some (.num v) → pv.get? k = some (some v) := by
  have hF := mapM_ok_iff.1 h
  clear h
  induction hF with
  | nil => exact ⟨rfl, fun k v hk => by simp [Dict.get?] at hk⟩
  | @cons kv p d pv hh _ ih =>
    obtain ⟨k0, x⟩ := kv
    obtain ⟨i1, i2⟩ := ih
    cases x with
    | text s => simp [asPull] at hh
    | num w =>
      have hh := Except.ok.inj (ε := PyErr) hh
      subst hh
      refine ⟨?_, fun k v hk => ?_⟩
      · simpa [Dict.keys] using i1
      · rw [Dict.get?_cons] at hk ⊢
        by_cases e : k0 = k
        · rw [if_pos e] at hk ⊢
          cases hk
          rfl
        · rw [if_neg e] at hk ⊢
          exact i2 k v hk

theorem scaledNp_eq {o : Obj} (hD : o.mdl.ctx.Distinct) (p : Fin o.doc.nps.length) (v : ℝ) :
    scaledNp o (o.mdl.nps p).name v = (o.mdl.nps p).scaledValue v := by
  unfold scaledNp
  cases hf : (List.finRange o.doc.nps.length).find? (fun q => decide ((o.mdl.nps q).name = (o.mdl.nps p).name)) with
  | none =>
    rw [List.find?_eq_none] at hf
    exact absurd (hf p (List.mem_finRange p)) (by simp)
  | some q =>
    have := List.find?_some hf
    have hq : q = p := np_inj hD (by simpa using this)
    rw [hq]

/-- What the text of `--nps` means: an NP is removed if some assignment selects it, and it is held at the value of the
last one. -/
theorem pulls_of_text {L : Cmd.Lib} {o : Obj} {as : List (Cmd.Str × Cmd.Str)} {d : Dict Cmd.Val}
    {pv : Dict (Option ℝ)} (hD : o.mdl.ctx.Distinct) (h0 : as ≠ [])
    (hp : ∀ a ∈ as, Cmd.Plain a.1 ∧ Cmd.Plain a.2)
    (h1 : ∀ a ∈ as, ∃ p, ∀ q, L.reMatch a.1 (o.mdl.nps q).name = true ↔ q = p)
    (h2 : ∀ a ∈ as, ∀ i, L.reMatch a.1 (o.mdl.pois i) = false)
    (hval : ∀ a ∈ as, ∃ v, L.float a.2 = some v)
    (hd : Cmd.processSetvals L (parNames o) { scale_nps := true } (Cmd.render as) = .ok d)
    (hpv : d.mapM asPull = .ok pv) (p : Fin o.doc.nps.length) :
    (o.mdl.Selected (reOf L) pv p ↔ ∃ a ∈ as, L.reMatch a.1 (o.mdl.nps p).name = true) ∧
    ∀ pre a post v, as = pre ++ a :: post → L.reMatch a.1 (o.mdl.nps p).name = true →
      (∀ b ∈ post, L.reMatch b.1 (o.mdl.nps p).name = false) → L.float a.2 = some v →
      removedAt pv (o.mdl.nps p) = (o.mdl.nps p).scaledValue v := by
  have hnp : ∀ q, (o.mdl.nps q).name ∈ (parNames o).nps := fun q => List.mem_ofFn.2 ⟨q, rfl⟩
  have hsel : ∀ a ∈ as, ∃ k, Props.Selects L (parNames o) { scale_nps := true } a k := by
    intro a ha
    obtain ⟨q, hq⟩ := h1 a ha
    exact ⟨(o.mdl.nps q).name, Or.inr ⟨rfl, hnp q⟩, (hq q).2 rfl⟩
  have hsel' : ∀ a ∈ as, ∀ k, Props.Selects L (parNames o) { scale_nps := true } a k ↔
      ∃ q, (o.mdl.nps q).name = k ∧ L.reMatch a.1 k = true := by
    intro a ha k
    constructor
    · rintro ⟨hk | hk, hm⟩
      · obtain ⟨i, rfl⟩ := List.mem_ofFn.1 hk.2
        rw [h2 a ha i] at hm
        cases hm
      · obtain ⟨q, rfl⟩ := List.mem_ofFn.1 hk.2
        exact ⟨q, rfl, hm⟩
    · rintro ⟨q, rfl, hm⟩
      exact ⟨Or.inr ⟨rfl, hnp q⟩, hm⟩
  obtain ⟨D', hD', hk⟩ := Props.c63_setvals L (parNames o) { scale_nps := true } as h0 hp hsel hval
    (by
      intro _ x hx hx'
      obtain ⟨i, rfl⟩ := List.mem_ofFn.1 hx
      obtain ⟨q, hq⟩ := List.mem_ofFn.1 hx'
      have h3 : (o.mdl.nps q).name ∈ o.mdl.ctx.nps.keys := by
        simp only [Mdl.ctx, Dict.keys]
        exact List.mem_map.2 ⟨((o.mdl.nps q).name, _), List.mem_ofFn.2 ⟨q, rfl⟩, rfl⟩
      have h4 : o.mdl.pois i ∈ List.ofFn o.mdl.ctx.pois := List.mem_ofFn.2 ⟨i, rfl⟩
      have h5 := (List.nodup_append.1 (List.nodup_append.1 hD).1).2.2 _ h4 _ h3
      exact h5 hq.symm)
    (by
      intro _ a ha
      obtain ⟨q, hq⟩ := h1 a ha
      have hnd : (parNames o).nps.Nodup := List.nodup_ofFn.2 (np_inj hD)
      have hnd' := hnd.filter (L.reMatch a.1)
      have hall : ∀ x ∈ (parNames o).nps.filter (L.reMatch a.1), x = (o.mdl.nps q).name := by
        intro x hx
        obtain ⟨hx1, hx2⟩ := List.mem_filter.1 hx
        obtain ⟨r, rfl⟩ := List.mem_ofFn.1 hx1
        rw [(hq r).1 hx2]
      match hl : (parNames o).nps.filter (L.reMatch a.1), hnd', hall with
      | [], _, _ => simp
      | [x], _, _ => simp
      | x :: y :: r, hnd', hall =>
        have e1 := hall x (by simp)
        have e2 := hall y (by simp)
        rw [e1, e2] at hnd'
        simp at hnd')
  rw [hd] at hD'
  have := Except.ok.inj (ε := PyErr) hD'
  subst this
  obtain ⟨a1, a2⟩ := asPull_inv hpv
  have hsomeK : ∀ q, (o.mdl.nps q).name ∈ d.keys ↔ ∃ a ∈ as, L.reMatch a.1 (o.mdl.nps q).name = true := by
    intro q
    rcases hk (o.mdl.nps q).name with ⟨hn, hno⟩ | ⟨pre, a, post, v, e, hs, -, -, hv⟩
    · rw [Dict.get?_eq_none_iff] at hn
      constructor
      · exact fun h => absurd h hn
      · rintro ⟨a, ha, hm⟩
        exact absurd ((hsel' a ha _).2 ⟨q, rfl, hm⟩) (hno a ha)
    · refine ⟨fun _ => ⟨a, by rw [e]; simp, hs.2⟩, fun _ => ?_⟩
      by_contra hc
      rw [← Dict.get?_eq_none_iff] at hc
      rw [hc] at hv
      cases hv
  have hkeyNp : ∀ k ∈ d.keys, ∃ q, (o.mdl.nps q).name = k := by
    intro k hkk
    rcases hk k with ⟨hn, -⟩ | ⟨pre, a, post, v, e, hs, -, -, -⟩
    · rw [Dict.get?_eq_none_iff] at hn
      exact absurd hkk hn
    · obtain ⟨q, hq, -⟩ := (hsel' a (by rw [e]; simp) k).1 hs
      exact ⟨q, hq⟩
  refine ⟨?_, ?_⟩
  · rw [← hsomeK p]
    unfold Selected
    rw [a1]
    constructor
    · rintro ⟨k, hk1, rfl | ⟨hno, -⟩⟩
      · exact hk1
      · obtain ⟨q, hq⟩ := hkeyNp k hk1
        exact absurd hq (hno q)
    · exact fun h => ⟨_, h, Or.inl rfl⟩
  · intro pre a post v e hm hpost hv
    rcases hk (o.mdl.nps p).name with ⟨-, hno⟩ | ⟨pre', a', post', v', e', hs', hpost', hv', hg⟩
    · exact absurd ((hsel' a (by rw [e]; simp) _).2 ⟨p, rfl, hm⟩) (hno a (by rw [e]; simp))
    · have hsame : a' = a := by
        rcases List.append_eq_append_iff.1 (e.symm.trans e') with ⟨c, hc1, hc2⟩ | ⟨c, hc1, hc2⟩
        · cases c with
          | nil => simp at hc2; exact hc2.1.symm
          | cons c0 c =>
            rw [List.cons_append, List.cons.injEq] at hc2
            have : a' ∈ post := by rw [hc2.2]; simp
            have hs2 := hs'.2
            rw [hpost a' this] at hs2
            cases hs2
        · cases c with
          | nil => simp at hc2; exact hc2.1
          | cons c0 c =>
            rw [List.cons_append, List.cons.injEq] at hc2
            have : a ∈ post' := by rw [hc2.2]; simp
            exact absurd ((hsel' a (by rw [e]; simp) _).2 ⟨p, rfl, hm⟩) (hpost' a this)
      subst hsame
      rw [hv] at hv'
      cases hv'
      rw [if_pos ⟨rfl, hnp p⟩] at hg
      have := a2 _ _ hg
      unfold removedAt
      rw [this]
      exact scaledNp_eq hD p v

end Markup
end Verif
