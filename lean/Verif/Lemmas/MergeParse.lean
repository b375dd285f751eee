import Verif.Model.MergeScript
import Verif.Lemmas.CmdLine
/-! Lemmas on the option `--channels` of `merge_channels.py`. -/
namespace Verif
namespace Markup
open Cmd

/-- A merge as written on the command line: `name=channel1,channel2,...`, where a channel may be followed by
`:low:high`. -/
structure MergeText where
  name : Str
  channels : List (Str × Option (Str × Str))

/-- `channel` or `channel:low:high`. -/
def chanText : Str × Option (Str × Str) → Str
  | (c, none) => c
  | (c, some (lo, hi)) => c ++ ':' :: (lo ++ ':' :: hi)

/-- `name=channel1,channel2,...`. -/
def mergeText (m : MergeText) : Str := m.name ++ '=' :: [','].intercalate (m.channels.map chanText)

/-- All merges, separated by `~`. -/
def mergesText (l : List MergeText) : Str := ['~'].intercalate (l.map mergeText)

/-- A text without separators or blanks. -/
def Clean (t : Str) : Prop := '~' ∉ t ∧ '=' ∉ t ∧ ',' ∉ t ∧ ':' ∉ t

/-- Nothing in the merge contains a separator, and there is a channel. -/
structure MergeText.Ok (m : MergeText) : Prop where
  name : Clean m.name
  channels : m.channels ≠ []
  clean : ∀ c ∈ m.channels, Clean c.1 ∧ ∀ lo hi, c.2 = some (lo, hi) → Clean lo ∧ Clean hi

/-- No channel has a range, or all have one, made of numbers. -/
def MergeText.RangesOk (L : Lib) (m : MergeText) : Prop :=
  (∀ c ∈ m.channels, c.2 = none) ∨
    ∀ c ∈ m.channels, ∃ lo hi a b, c.2 = some (lo, hi) ∧ L.float lo = some a ∧ L.float hi = some b

/-- The range of a channel. -/
noncomputable def rangeOf (L : Lib) (c : Str × Option (Str × Str)) : Option (ℝ × ℝ) :=
  c.2.map fun r => ((L.float r.1).getD 0, (L.float r.2).getD 0)

/-- The merge that is meant. -/
noncomputable def MergeText.spec (L : Lib) (m : MergeText) : MergeSpec where
  name := String.ofList m.name
  channels := m.channels.map fun c => String.ofList c.1
  ranges := if m.channels.filterMap (rangeOf L) = [] then none else some (m.channels.filterMap (rangeOf L))

theorem forall₂_mem_left {α β : Type} {R : α → β → Prop} {l : List α} {r : List β} (h : List.Forall₂ R l r) :
    ∀ a ∈ l, ∃ b ∈ r, R a b := by
  induction h with
  | nil => intro a ha; cases ha
  | @cons a0 b0 _ _ hh _ ih =>
    intro a ha
    rcases List.mem_cons.1 ha with rfl | ha
    · exact ⟨b0, by simp, hh⟩
    · obtain ⟨b, hb, hR⟩ := ih a ha
      exact ⟨b, by simp [hb], hR⟩

theorem not_mem_intercalate {x sep : Char} (hx : x ≠ sep) {l : List Str} (h : ∀ t ∈ l, x ∉ t) :
    x ∉ [sep].intercalate l := by
  induction l with
  | nil => simp
  | cons a l ih =>
    cases l with
    | nil => simpa using h a (by simp)
    | cons b l =>
      rw [List.intercalate_cons_of_ne_nil (by simp)]
      simp only [List.mem_append, List.mem_singleton, not_or]
      exact ⟨⟨h a (by simp), hx⟩, ih fun t ht => h t (by simp [List.mem_cons.1 ht])⟩

theorem not_mem_chanText {x : Char} (hx : x ≠ ':') {c : Str × Option (Str × Str)} (h1 : x ∉ c.1)
    (h2 : ∀ lo hi, c.2 = some (lo, hi) → x ∉ lo ∧ x ∉ hi) : x ∉ chanText c := by
  obtain ⟨c, _ | ⟨lo, hi⟩⟩ := c
  · exact h1
  · have := h2 lo hi rfl
    simp only [chanText, List.mem_append, List.mem_cons, not_or]
    exact ⟨h1, hx, this.1, hx, this.2⟩

theorem parseChannel_text (L : Lib) {c : Str × Option (Str × Str)} (h1 : ':' ∉ c.1)
    (h2 : ∀ lo hi, c.2 = some (lo, hi) → ':' ∉ lo ∧ ':' ∉ hi) :
    parseChannel L (chanText c) =
      match c.2 with
      | none => .ok (String.ofList c.1, none)
      | some (lo, hi) =>
        match L.float lo, L.float hi with
        | some a, some b => .ok (String.ofList c.1, some (a, b))
        | _, _ => .error .valueError := by
  obtain ⟨c, _ | ⟨lo, hi⟩⟩ := c
  · have : c.splitOn ':' = [c] := List.splitOn_eq_singleton h1
    simp only [parseChannel, chanText, this]
  · have hh := h2 lo hi rfl
    have : (c ++ ':' :: (lo ++ ':' :: hi)).splitOn ':' = [c, lo, hi] := by
      rw [List.splitOn_append_cons_self_of_not_mem h1, List.splitOn_append_cons_self_of_not_mem hh.1,
        List.splitOn_eq_singleton hh.2]
    simp only [parseChannel, chanText, this]
    cases L.float lo <;> cases L.float hi <;> rfl

theorem split_merge {m : MergeText} (h : m.Ok) :
    (mergeText m).splitOn '=' = [m.name, [','].intercalate (m.channels.map chanText)] ∧
      ([','].intercalate (m.channels.map chanText)).splitOn ',' = m.channels.map chanText := by
  have e : '=' ∉ [','].intercalate (m.channels.map chanText) := by
    refine not_mem_intercalate (by decide) fun t ht => ?_
    obtain ⟨c, hc, rfl⟩ := List.mem_map.1 ht
    obtain ⟨k1, k2⟩ := h.clean c hc
    exact not_mem_chanText (by decide) k1.2.1 fun lo hi e => ⟨(k2 lo hi e).1.2.1, (k2 lo hi e).2.2.1⟩
  refine ⟨?_, ?_⟩
  · rw [mergeText, List.splitOn_append_cons_self_of_not_mem h.name.2.1, List.splitOn_eq_singleton e]
  · refine List.splitOn_intercalate _ ?_ (by simpa using h.channels)
    intro t ht
    obtain ⟨c, hc, rfl⟩ := List.mem_map.1 ht
    obtain ⟨k1, k2⟩ := h.clean c hc
    exact not_mem_chanText (by decide) k1.2.2.1 fun lo hi e => ⟨(k2 lo hi e).1.2.2.1, (k2 lo hi e).2.2.2.1⟩

theorem split_merges {l : List MergeText} (h0 : l ≠ []) (h : ∀ m ∈ l, m.Ok) :
    (mergesText l).splitOn '~' = l.map mergeText := by
  refine List.splitOn_intercalate _ ?_ (by simpa using h0)
  intro t ht
  obtain ⟨m, hm, rfl⟩ := List.mem_map.1 ht
  have hm := h m hm
  simp only [mergeText, List.mem_append, List.mem_cons, not_or]
  refine ⟨hm.name.1, by decide, not_mem_intercalate (by decide) fun t ht => ?_⟩
  obtain ⟨c, hc, rfl⟩ := List.mem_map.1 ht
  obtain ⟨k1, k2⟩ := hm.clean c hc
  exact not_mem_chanText (by decide) k1.1 fun lo hi e => ⟨(k2 lo hi e).1.1, (k2 lo hi e).2.1⟩

/-- The bounds of the range, if any, are numbers. -/
def NumericRange (L : Lib) (c : Str × Option (Str × Str)) : Prop :=
  ∀ lo hi, c.2 = some (lo, hi) → L.float lo ≠ none ∧ L.float hi ≠ none

theorem parseMerge_numeric (L : Lib) {m : MergeText} (h : m.Ok) (hn : ∀ c ∈ m.channels, NumericRange L c) :
    parseMerge L (mergeText m) = (do
      let r ← checkRanges m.channels.length (m.channels.filterMap (rangeOf L))
      return ⟨String.ofList m.name, m.channels.map (fun c => String.ofList c.1), r⟩) := by
  have hm : (m.channels.map chanText).mapM (parseChannel L) =
      .ok (m.channels.map fun c => (String.ofList c.1, rangeOf L c)) := by
    rw [mapM_ok_iff, List.forall₂_map_left_iff, List.forall₂_map_right_iff, List.forall₂_same]
    intro c hc
    obtain ⟨k1, k2⟩ := h.clean c hc
    rw [parseChannel_text L k1.2.2.2 fun lo hi e => ⟨(k2 lo hi e).1.2.2.2, (k2 lo hi e).2.2.2.2⟩]
    have := hn c hc
    obtain ⟨c, _ | ⟨lo, hi⟩⟩ := c
    · rfl
    · obtain ⟨q1, q2⟩ := this lo hi rfl
      obtain ⟨a, ha⟩ := Option.ne_none_iff_exists'.1 q1
      obtain ⟨b, hb⟩ := Option.ne_none_iff_exists'.1 q2
      simp [ha, hb, rangeOf]
  unfold parseMerge
  rw [(split_merge h).1]
  dsimp only
  rw [(split_merge h).2, hm, bind_ok, List.length_map, List.filterMap_map, List.map_map]
  rfl

theorem parseMerge_ok (L : Lib) {m : MergeText} (h : m.Ok) (hr : m.RangesOk L) :
    parseMerge L (mergeText m) = .ok (m.spec L) := by
  rw [parseMerge_numeric L h]
  · unfold checkRanges MergeText.spec
    rcases hr with hr | hr
    · have : m.channels.filterMap (rangeOf L) = [] := by
        rw [List.filterMap_eq_nil_iff]
        intro c hc
        simp [rangeOf, hr c hc]
      rw [this, if_pos rfl]; rfl
    · have hl : (m.channels.filterMap (rangeOf L)).length = m.channels.length := by
        rw [List.length_filterMap_eq_countP, List.countP_eq_length]
        intro c hc
        obtain ⟨lo, hi, a, b, e, -, -⟩ := hr c hc
        simp [rangeOf, e]
      have h0 : m.channels.length ≠ 0 := by simpa using h.channels
      rw [if_neg (by rw [hl]; exact h0), if_neg (by simp [hl]), if_neg]
      · rfl
      · intro e; rw [e] at hl; exact h0 hl.symm
  · intro c hc lo hi e
    rcases hr with hr | hr
    · rw [hr c hc] at e; cases e
    · obtain ⟨lo', hi', a, b, e', q1, q2⟩ := hr c hc
      rw [e'] at e
      cases e
      simp [q1, q2]

theorem parseMerge_error (L : Lib) {m : MergeText} (h : m.Ok) (hr : ¬ m.RangesOk L) :
    ∃ e, parseMerge L (mergeText m) = .error e := by
  by_cases hn : ∀ c ∈ m.channels, NumericRange L c
  · rw [parseMerge_numeric L h hn]
    unfold checkRanges
    have h1 : ¬ (m.channels.filterMap (rangeOf L)).length = 0 := by
      intro e
      refine hr (.inl fun c hc => ?_)
      have := List.filterMap_eq_nil_iff.1 (List.length_eq_zero_iff.1 e) c hc
      simpa [rangeOf] using this
    have h2 : (m.channels.filterMap (rangeOf L)).length ≠ m.channels.length := by
      intro e
      rw [List.length_filterMap_eq_countP, List.countP_eq_length] at e
      refine hr (.inr fun c hc => ?_)
      have h3 := e c hc
      have h4 := hn c hc
      obtain ⟨c, _ | ⟨lo, hi⟩⟩ := c
      · simp [rangeOf] at h3
      · obtain ⟨q1, q2⟩ := h4 lo hi rfl
        obtain ⟨a, ha⟩ := Option.ne_none_iff_exists'.1 q1
        obtain ⟨b, hb⟩ := Option.ne_none_iff_exists'.1 q2
        exact ⟨lo, hi, a, b, rfl, ha, hb⟩
    rw [if_neg h1, if_pos h2]
    exact ⟨_, rfl⟩
  · push Not at hn
    obtain ⟨c, hc, hn⟩ := hn
    unfold NumericRange at hn
    push Not at hn
    obtain ⟨lo, hi, e, hn⟩ := hn
    have hbad : ∀ r, parseChannel L (chanText c) ≠ .ok r := by
      obtain ⟨k1, k2⟩ := h.clean c hc
      intro r
      rw [parseChannel_text L k1.2.2.2 fun lo hi e => ⟨(k2 lo hi e).1.2.2.2, (k2 lo hi e).2.2.2.2⟩, e]
      dsimp only
      cases h1 : L.float lo with
      | none => simp
      | some a =>
        rw [hn (by simp [h1])]
        simp
    unfold parseMerge
    rw [(split_merge h).1]
    dsimp only
    rw [(split_merge h).2]
    cases hm : (m.channels.map chanText).mapM (parseChannel L) with
    | error e => exact ⟨e, rfl⟩
    | ok l =>
      exfalso
      have hF := mapM_ok_iff.1 hm
      rw [List.forall₂_map_left_iff] at hF
      obtain ⟨r, -, hr⟩ := forall₂_mem_left hF c hc
      exact hbad r hr

end Markup
end Verif
