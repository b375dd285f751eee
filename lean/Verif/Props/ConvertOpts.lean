import Verif.Model.ConvertOpts
import Verif.Props.ConvertWs
import Verif.Props.Collect
import Verif.Lemmas.MergeParse
import Verif.Lemmas.Markup
/-!
# C88: options and output of `convert_ws.py`
-/
namespace Verif.Props
open Verif Conv Collect
open Verif.Cmd (Str Lib)

/-! ## Binning -/

/-- C88.  The edges of several items of `--binning` are put together. -/
theorem c88_binning_items (L : Lib) (items : List Str) (hne : items ≠ []) (hsep : ∀ t ∈ items, '~' ∉ t) (edges : List (List ℝ))
    (h : List.Forall₂ (fun t e => binning L t = .ok e) items edges) : binning L (['~'].intercalate items) = .ok edges.flatten := by
  have hone : ∀ t ∈ items, ∀ e, binning L t = .ok e → edgesOf L t = .ok e := by
    intro t ht e he
    unfold binning at he
    rw [List.splitOn_eq_singleton (hsep t ht), List.mapM_cons, List.mapM_nil] at he
    rcases ho : edgesOf L t with er | e'
    · rw [ho] at he; simp at he
    · rw [ho] at he
      simp only [bind_ok, pure_ok, List.flatten_cons, List.flatten_nil, List.append_nil] at he
      rw [Except.ok.inj he]
  unfold binning
  rw [List.splitOn_intercalate _ hsep hne]
  have : items.mapM (edgesOf L) = .ok edges := by
    rw [mapM_ok_iff]
    clear hne hsep
    induction h with
    | nil => exact .nil
    | cons hab _ ih => exact .cons (hone _ (List.mem_cons_self ..) _ hab) (ih fun t ht => hone t (List.mem_cons_of_mem _ ht))
  rw [this]

theorem last_plus (t : Str) : takePlus (t ++ ['+']) = .ok (t, true) := by simp [takePlus]

theorem no_plus {t : Str} (h : '+' ∉ t) (hne : t ≠ []) : takePlus t = .ok (t, false) := by
  unfold takePlus
  rw [List.getLast?_eq_getLast_of_ne_nil hne]
  dsimp only
  rw [if_neg]
  intro he
  exact h (he ▸ List.getLast_mem hne)

/-- C88.  `xmin:xmax:n+`: `n` edges, evenly spaced from `xmin` to `xmax`. -/
theorem c88_binning_plus (L : Lib) (ta tb tn : Str) (a b : ℝ) (n : ℕ) (ha : L.float ta = some a) (hb : L.float tb = some b)
    (hn : L.int tn = some (n : ℤ)) (hc : ∀ t ∈ [ta, tb, tn], ':' ∉ t ∧ '~' ∉ t) :
    binning L (colons [ta, tb, tn ++ ['+']]) = .ok (evenly a b n) ∧ (evenly a b n).length = n ∧
      (1 ≤ n → (evenly a b n).head? = some a) ∧ (2 ≤ n → (evenly a b n).getLast? = some b) := by
  have h1 : (colons [ta, tb, tn ++ ['+']]).splitOn '~' = [colons [ta, tb, tn ++ ['+']]] := by
    apply List.splitOn_eq_singleton
    refine Markup.not_mem_intercalate (by decide) fun t ht => ?_
    simp only [List.mem_cons, List.not_mem_nil, or_false] at ht
    rcases ht with rfl | rfl | rfl
    · exact (hc _ (by simp)).2
    · exact (hc _ (by simp)).2
    · intro hm; rcases List.mem_append.1 hm with hm | hm
      · exact (hc tn (by simp)).2 hm
      · simp at hm
  have h2 : (colons [ta, tb, tn ++ ['+']]).splitOn ':' = [ta, tb, tn ++ ['+']] := by
    apply splitOn_colons _ (by simp)
    intro t ht
    simp only [List.mem_cons, List.not_mem_nil, or_false] at ht
    rcases ht with rfl | rfl | rfl
    · exact (hc _ (by simp)).1
    · exact (hc _ (by simp)).1
    · intro hm; rcases List.mem_append.1 hm with hm | hm
      · exact (hc tn (by simp)).1 hm
      · simp at hm
  have he : Cmd.linspace a b (n : ℤ) true = .ok (evenly a b n) := by
    have := linPos_ok ha hb hn
    unfold linPos at this
    rwa [ha, hb, hn] at this
  refine ⟨?_, by simp [evenly], ?_, ?_⟩
  · unfold binning
    rw [h1, List.mapM_cons, List.mapM_nil]
    unfold edgesOf
    rw [h2]
    simp only [last_plus, bind_ok, hn, orValueError, ha, hb, he, pure_ok, List.flatten_cons, List.flatten_nil, List.append_nil]
  · intro h
    obtain ⟨k, rfl⟩ : ∃ k, n = k + 1 := ⟨n - 1, by omega⟩
    simp [evenly, List.range_succ_eq_map]
  · intro h
    obtain ⟨k, rfl⟩ : ∃ k, n = k + 2 := ⟨n - 2, by omega⟩
    have : ((k : ℝ) + 1) ≠ 0 := by positivity
    simp only [evenly, List.range_succ, List.map_append, List.map_cons, List.map_nil, List.getLast?_concat]
    push_cast
    rw [show (k : ℝ) + 2 - 1 = k + 1 by ring, div_self this]
    congr 1; ring

/-- The edges of `n` bins of equal width from `a`, without the end of the last one. -/
noncomputable def startsOf (a b : ℝ) (n : ℕ) : List ℝ := (List.range n).map fun i : ℕ => a + (b - a) * ((i : ℝ) / n)

/-- C88.  `xmin:xmax:n` gives the lower edges of `n` equal bins from `xmin` to `xmax`, so that it can be continued by the next item.
Finding F121: used alone, as in the documentation of the option, it gives only `n - 1` bins, and the last edge is one bin below `xmax`. -/
theorem c88_binning_plain (L : Lib) (ta tb tn : Str) (a b : ℝ) (n : ℕ) (ha : L.float ta = some a) (hb : L.float tb = some b)
    (hn : L.int tn = some (n : ℤ)) (hne : tn ≠ []) (hc : ∀ t ∈ [ta, tb, tn], ':' ∉ t ∧ '~' ∉ t) (hp : '+' ∉ tn) :
    binning L (colons [ta, tb, tn]) = .ok (startsOf a b n) ∧ (startsOf a b n).length = n ∧
      (1 ≤ n → (startsOf a b n).getLast? = some (b - (b - a) / n)) := by
  have h1 : (colons [ta, tb, tn]).splitOn '~' = [colons [ta, tb, tn]] :=
    List.splitOn_eq_singleton (Markup.not_mem_intercalate (by decide) fun t ht => (hc t ht).2)
  have h2 : (colons [ta, tb, tn]).splitOn ':' = [ta, tb, tn] := splitOn_colons (fun t ht => (hc t ht).1) (by simp)
  refine ⟨?_, by simp [startsOf], ?_⟩
  · unfold binning
    rw [h1, List.mapM_cons, List.mapM_nil]
    unfold edgesOf
    rw [h2]
    simp only [no_plus hp hne, bind_ok, hn, orValueError, ha, hb, Cmd.linspace]
    rw [if_neg (by simp)]
    simp only [bind_ok, pure_ok, List.flatten_cons, List.flatten_nil, List.append_nil, startsOf, Int.toNat_natCast]
    congr 1
    refine List.map_congr_left fun i _ => ?_
    simp only [Bool.false_eq_true, if_false, Int.cast_natCast]
    ring
  · intro h
    obtain ⟨k, rfl⟩ : ∃ k, n = k + 1 := ⟨n - 1, by omega⟩
    have : ((k : ℝ) + 1) ≠ 0 := by positivity
    simp only [startsOf, List.range_succ, List.map_append, List.map_cons, List.map_nil, List.getLast?_concat]
    push_cast
    congr 1; field_simp; ring

/-- C88.  `xmin:xmax:n:log`: lower edges in constant ratio. -/
theorem c88_binning_log (L : Lib) (ta tb tn : Str) (a b : ℝ) (n : ℕ) (ha : L.float ta = some a) (hb : L.float tb = some b)
    (hn : L.int tn = some (n : ℤ)) (hne : tn ≠ []) (hc : ∀ t ∈ [ta, tb, tn], ':' ∉ t ∧ '~' ∉ t) (hp : '+' ∉ tn) (h0 : 0 < a) (h1 : a ≠ 1) (hb0 : 0 < b) :
    binning L (colons [ta, tb, tn, "log".toList]) = .ok ((List.range n).map (geometric a b n)) := by
  have hc' : ∀ t ∈ [ta, tb, tn, "log".toList], ':' ∉ t ∧ '~' ∉ t := by
    intro t ht
    by_cases hl : t = "log".toList
    · subst hl; decide
    · exact hc t (by simp only [List.mem_cons, List.not_mem_nil, or_false, hl] at ht ⊢; exact ht)
  have e1 : (colons [ta, tb, tn, "log".toList]).splitOn '~' = [colons [ta, tb, tn, "log".toList]] :=
    List.splitOn_eq_singleton (Markup.not_mem_intercalate (by decide) fun t ht => (hc' t ht).2)
  have e2 : (colons [ta, tb, tn, "log".toList]).splitOn ':' = [ta, tb, tn, "log".toList] := splitOn_colons (fun t ht => (hc' t ht).1) (by simp)
  unfold binning
  rw [e1, List.mapM_cons, List.mapM_nil]
  unfold edgesOf
  rw [e2]
  simp only [no_plus hp hne, bind_ok, hn, orValueError, ha, hb, if_true, mathLog, if_pos h0, if_pos hb0, pyDiv, if_neg (log_ne h0 h1), logspaceTo, Cmd.linspace]
  rw [if_neg (by simp)]
  simp only [bind_ok, pure_ok, List.flatten_cons, List.flatten_nil, List.append_nil, List.map_map, Int.toNat_natCast]
  congr 1
  refine List.map_congr_left fun i _ => ?_
  simp only [Function.comp, Bool.false_eq_true, if_false, Int.cast_natCast, geometric]
  rw [← geo_step h0 h1 hb0]
  congr 1
  ring

/-- C88.  An item that is not of this form is refused. -/
theorem c88_binning_refused (L : Lib) (text : Str) (t : Str) (ht : t ∈ text.splitOn '~')
    (hbad : (t.splitOn ':').length < 3 ∨ L.float ((t.splitOn ':').headD []) = none ∨ L.float ((t.splitOn ':').getD 1 []) = none) :
    binning L text = .error .valueError := by
  have herr : ∃ e, edgesOf L t = .error e := by
    unfold edgesOf
    rcases hs : t.splitOn ':' with _ | ⟨f0, _ | ⟨f1, _ | ⟨f2, rest⟩⟩⟩
    · exact ⟨_, rfl⟩
    · exact ⟨_, rfl⟩
    · exact ⟨_, rfl⟩
    · rw [hs] at hbad
      simp only [List.length_cons, List.headD_cons, List.getD_cons_succ, List.getD_cons_zero] at hbad
      have hb : L.float f0 = none ∨ L.float f1 = none := by
        rcases hbad with h | h
        · omega
        · exact h
      have hlin : ∀ n last, ∃ e, (do Cmd.linspace (← orValueError (L.float f0)) (← orValueError (L.float f1)) n last : Except PyErr (List ℝ)) = .error e := by
        intro n last
        rcases h0 : L.float f0 with _ | a
        · exact ⟨_, rfl⟩
        · rcases h1 : L.float f1 with _ | b
          · exact ⟨_, rfl⟩
          · simp [h0, h1] at hb
      dsimp only
      rcases takePlus f2 with e | ⟨u, last⟩
      · exact ⟨e, rfl⟩
      · simp only [bind_ok]
        rcases L.int u with _ | n
        · exact ⟨_, rfl⟩
        · simp only [orValueError, bind_ok]
          split
          · next r =>
            by_cases hr : r = "log".toList
            · rw [if_pos hr]
              rcases h1 : L.float f1 with _ | b
              · exact ⟨_, rfl⟩
              · simp only [bind_ok]
                rcases mathLog b with e | lb
                · exact ⟨_, rfl⟩
                · rcases h0 : L.float f0 with _ | a
                  · exact ⟨_, rfl⟩
                  · simp [h0, h1] at hb
            · rw [if_neg hr]; exact hlin n last
          · exact hlin n last
  obtain ⟨e, he⟩ := herr
  unfold binning
  rcases hm : (text.splitOn '~').mapM (edgesOf L) with e' | r
  · rfl
  · obtain ⟨b, hb⟩ := mapM_ok_mem hm t ht
    rw [he] at hb; cases hb

/-- An example: `--binning 100:160:60` has 59 bins, up to 159; `--binning 100:130:3~130:170:3+` has the edges 100, 110, 120, 130, 150, 170. -/
example (L : Lib) (h100 : L.float "100".toList = some 100) (h160 : L.float "160".toList = some 160) (h60 : L.int "60".toList = some ((60 : ℕ) : ℤ))
    (h130 : L.float "130".toList = some 130) (h170 : L.float "170".toList = some 170) (h3 : L.int "3".toList = some ((3 : ℕ) : ℤ)) :
    (∃ e, binning L "100:160:60".toList = .ok e ∧ e.length - 1 = 59 ∧ e.getLast? = some 159) ∧
    binning L "100:130:3~130:170:3+".toList = .ok [100, 110, 120, 130, 150, 170] := by
  constructor
  · have := c88_binning_plain L _ _ _ 100 160 60 h100 h160 h60 (by decide) (by decide) (by decide)
    refine ⟨_, this.1, by rw [this.2.1], by rw [this.2.2 (by norm_num)]; norm_num⟩
  · have e1 := (c88_binning_plain L _ _ _ 100 130 3 h100 h130 h3 (by decide) (by decide) (by decide)).1
    have e2 := (c88_binning_plus L _ _ _ 130 170 3 h130 h170 h3 (by decide)).1
    have := c88_binning_items L ["100:130:3".toList, "130:170:3+".toList] (by decide) (by decide) _ (.cons e1 (.cons e2 .nil))
    have hr3 : List.range 3 = [0, 1, 2] := rfl
    have ht : ['~'].intercalate ["100:130:3".toList, "130:170:3+".toList] = "100:130:3~130:170:3+".toList := by decide
    rw [ht] at this
    rw [this]
    norm_num [startsOf, evenly, hr3]

/-! ## Channels -/

/-- C88.  Without `--channels`, all the channels of the workspace, with their names; otherwise exactly those whose position or name is listed,
in the order of the workspace, and with the name given for the position, if there is one. -/
theorem c88_channels (user : Dict String) (cats : List String) :
    (user = [] → channelNames user cats = cats.zipIdx) ∧
    (user ≠ [] → ∀ (n : String) (i : ℕ), (n, i) ∈ channelNames user cats ↔ ∃ cat, cats[i]? = some cat ∧
      (toString i ∈ user.keys ∨ cat ∈ user.keys) ∧ n = (match user.get? (toString i) with | some u => if u = "" then cat else u | none => cat)) ∧
    ((channelNames user cats).map Prod.snd).Sublist (List.range cats.length) := by
  have hsnd : ∀ i cat r, channelName user i cat = some r → r.2 = i := by
    intro i cat r h
    unfold channelName at h
    split at h
    · cases h
    · split at h
      · split at h <;> · cases h; rfl
      · cases h; rfl
  refine ⟨?_, ?_, ?_⟩
  · rintro rfl
    unfold channelNames
    have : ∀ e : String × ℕ, channelName [] e.2 e.1 = some e := fun e => by simp [channelName, Dict.get?]
    simp [this]
  · intro hu n i
    unfold channelNames
    rw [List.mem_filterMap]
    constructor
    · rintro ⟨⟨cat, j⟩, hm, h⟩
      have hj := hsnd _ _ _ h
      dsimp only at hj h
      subst hj
      have hc : cats[i]? = some cat := by
        have := List.mem_zipIdx_iff_getElem?.1 hm
        simpa using this
      refine ⟨cat, hc, ?_, ?_⟩
      · by_contra hno
        rw [not_or, ← Dict.get?_eq_none_iff, ← Dict.get?_eq_none_iff] at hno
        rw [channelName, if_pos ⟨hu, hno⟩] at h
        cases h
      · unfold channelName at h
        split at h
        · cases h
        · rcases hg : user.get? (toString i) with _ | u
          · rw [hg] at h; cases h; rfl
          · rw [hg] at h
            by_cases hue : u = ""
            · subst hue; simp at h ⊢; exact h.symm
            · simp [hue] at h ⊢; exact h.symm
    · rintro ⟨cat, hc, hsel, hn⟩
      refine ⟨(cat, i), List.mem_zipIdx_iff_getElem?.2 (by simpa using hc), ?_⟩
      unfold channelName
      rw [if_neg]
      · rcases hg : user.get? (toString i) with _ | u
        · rw [hg] at hn; simp at hn ⊢; exact hn.symm
        · rw [hg] at hn
          by_cases hue : u = ""
          · subst hue; simp at hn ⊢; exact hn.symm
          · simp [hue] at hn ⊢; exact hn.symm
      · rintro ⟨_, h1, h2⟩
        rw [Dict.get?_eq_none_iff] at h1 h2
        exact hsel.elim h1 h2
  · unfold channelNames
    have : ∀ (l : List String) (k : ℕ), (((l.zipIdx k).filterMap fun e => channelName user e.2 e.1).map Prod.snd).Sublist (List.range' k l.length) := by
      intro l
      induction l with
      | nil => intro k; simp
      | cons a l ih =>
        intro k
        rw [List.zipIdx_cons, List.filterMap_cons, List.length_cons, List.range'_succ]
        rcases hc : channelName user k a with _ | r
        · simp only [hc]; exact (ih (k + 1)).cons _
        · simp only [hc, List.map_cons]
          rw [hsnd _ _ _ hc]
          exact (ih (k + 1)).cons_cons _
    rw [List.range_eq_range']
    exact this cats 0

/-- C88.  The text `0:name,category,...` of `--channels`: what is listed, with the new names. -/
theorem c88_channel_text (l : List (String × Option String)) (hne : l ≠ []) (hd : (l.map Prod.fst).Nodup)
    (hp : ∀ e ∈ l, (',' ∉ e.1.toList ∧ ':' ∉ e.1.toList) ∧ ∀ n, e.2 = some n → ',' ∉ n.toList ∧ ':' ∉ n.toList) :
    userChannels ([','].intercalate (l.map fun e => colons (e.1.toList :: e.2.toList.map String.toList))) = l.map fun e => (e.1, e.2.getD "") := by
  unfold userChannels
  rw [List.splitOn_intercalate _ _ (by simpa using hne)]
  · clear hne
    have hspec : ∀ e ∈ l, (colons (e.1.toList :: e.2.toList.map String.toList)).splitOn ':' = e.1.toList :: e.2.toList.map String.toList := by
      intro e he
      refine splitOn_colons (fun t ht => ?_) (by simp)
      rcases List.mem_cons.1 ht with rfl | ht
      · exact (hp e he).1.2
      · obtain ⟨n, hn, rfl⟩ := List.mem_map.1 ht
        exact ((hp e he).2 n (by simpa using hn)).2
    suffices h : ∀ (l : List (String × Option String)) (acc : Dict String), (∀ e ∈ l, (colons (e.1.toList :: e.2.toList.map String.toList)).splitOn ':' = e.1.toList :: e.2.toList.map String.toList) →
        (l.map Prod.fst).Nodup → (∀ e ∈ l, e.1 ∉ acc.keys) →
        (l.map fun e => colons (e.1.toList :: e.2.toList.map String.toList)).foldl (fun d spec =>
          match spec.splitOn ':' with
          | [a, b] => Dict.set d (String.ofList a) (String.ofList b)
          | f => Dict.set d (String.ofList (f.headD [])) "") acc = acc ++ l.map fun e => (e.1, e.2.getD "") by
      exact h l [] hspec hd (by simp [Dict.keys])
    clear hspec hd hp
    intro l
    induction l with
    | nil => intro acc _ _ _; simp
    | cons e l ih =>
      intro acc hs hd hacc
      rw [List.map_cons, List.nodup_cons] at hd
      have hnew : e.1 ∉ acc.keys := hacc e (List.mem_cons_self ..)
      rw [List.map_cons, List.foldl_cons, hs e (List.mem_cons_self ..)]
      have hset : ∀ v : String, Dict.set acc e.1 v = acc ++ [(e.1, v)] := fun v => Markup.set_new' acc e.1 v hnew
      have hstep : (match (e.1.toList :: e.2.toList.map String.toList) with
          | [a, b] => Dict.set acc (String.ofList a) (String.ofList b)
          | f => Dict.set acc (String.ofList (f.headD [])) "") = acc ++ [(e.1, e.2.getD "")] := by
        rcases h2 : e.2 with _ | n
        · simp [String.ofList_toList, hset]
        · simp [String.ofList_toList, hset]
      rw [hstep, ih _ (fun e' he' => hs e' (List.mem_cons_of_mem _ he')) hd.2]
      · simp
      · intro e' he' hm
        rw [Dict.keys_append, List.mem_append] at hm
        rcases hm with hm | hm
        · exact hacc e' (List.mem_cons_of_mem _ he') hm
        · have : e'.1 = e.1 := by simpa [Dict.keys] using hm
          exact hd.1 (this ▸ List.mem_map.2 ⟨e', he', rfl⟩)
  · intro t ht
    obtain ⟨e, he, rfl⟩ := List.mem_map.1 ht
    refine Markup.not_mem_intercalate (by decide) fun u hu => ?_
    rcases List.mem_cons.1 hu with rfl | hu
    · exact (hp e he).1.1
    · obtain ⟨n, hn, rfl⟩ := List.mem_map.1 hu
      exact ((hp e he).2 n (by simpa using hn)).1

/-! ## Samples -/

/-- The text `sample1:par1,sample2:par2,...`. -/
def specText (l : List (String × String)) : Str := [','].intercalate (l.map fun e => colons [e.1.toList, e.2.toList])

/-- Names which can be used in `--samples`. -/
def PlainName (s : String) : Prop := ',' ∉ s.toList ∧ ':' ∉ s.toList ∧ ' ' ∉ s.toList ∧ '\n' ∉ s.toList

theorem normparNames_specText (l : List (String × String)) (hne : l ≠ []) (hd : (l.map Prod.fst).Nodup)
    (hp : ∀ e ∈ l, PlainName e.1 ∧ PlainName e.2) : normparNames (specText l) = l.map fun e => (("", e.1), e.2) := by
  have hfil : (specText l).filter (fun c => decide (c ≠ ' ' ∧ c ≠ '\n')) = specText l := by
    rw [List.filter_eq_self]
    intro ch hch
    have : ∀ x : Char, x ≠ ',' → x ≠ ':' → (∀ e ∈ l, x ∉ e.1.toList ∧ x ∉ e.2.toList) → x ∉ specText l := by
      intro x hx1 hx2 hx
      refine Markup.not_mem_intercalate hx1 fun t ht => ?_
      obtain ⟨e, he, rfl⟩ := List.mem_map.1 ht
      refine Markup.not_mem_intercalate hx2 fun u hu => ?_
      simp only [List.mem_cons, List.not_mem_nil, or_false] at hu
      rcases hu with rfl | rfl
      · exact (hx e he).1
      · exact (hx e he).2
    simp only [decide_eq_true_eq]
    constructor
    · rintro rfl; exact this ' ' (by decide) (by decide) (fun e he => ⟨(hp e he).1.2.2.1, (hp e he).2.2.2.1⟩) hch
    · rintro rfl; exact this '\n' (by decide) (by decide) (fun e he => ⟨(hp e he).1.2.2.2, (hp e he).2.2.2.2⟩) hch
  have hsplit : (specText l).splitOn ',' = l.map fun e => colons [e.1.toList, e.2.toList] := by
    apply List.splitOn_intercalate
    · intro t ht
      obtain ⟨e, he, rfl⟩ := List.mem_map.1 ht
      refine Markup.not_mem_intercalate (by decide) fun u hu => ?_
      simp only [List.mem_cons, List.not_mem_nil, or_false] at hu
      rcases hu with rfl | rfl
      · exact (hp e he).1.1
      · exact (hp e he).2.1
    · simpa using hne
  have hspec : ∀ e ∈ l, specNames (colons [e.1.toList, e.2.toList]) = ["", e.1, e.2] := by
    intro e he
    unfold specNames
    rw [splitOn_colons (by
      intro t ht
      simp only [List.mem_cons, List.not_mem_nil, or_false] at ht
      rcases ht with rfl | rfl
      · exact (hp e he).1.2.1
      · exact (hp e he).2.2.1) (by simp)]
    simp [String.ofList_toList]
  have hfil2 : (l.map fun e => colons [e.1.toList, e.2.toList]).filter (fun s => decide (s ≠ [])) = l.map fun e => colons [e.1.toList, e.2.toList] := by
    rw [List.filter_eq_self]
    intro t ht
    obtain ⟨e, _, rfl⟩ := List.mem_map.1 ht
    simp [colons, List.intercalate]
  unfold normparNames
  rw [hfil, hsplit, hfil2]
  clear hfil hsplit hfil2 hne
  suffices h : ∀ (acc : List ((String × String) × String)) (l : List (String × String)), (∀ e ∈ l, specNames (colons [e.1.toList, e.2.toList]) = ["", e.1, e.2]) →
      (l.map Prod.fst).Nodup → (∀ e ∈ l, ∀ a ∈ acc, a.1 ≠ ("", e.1)) →
      (l.map fun e => colons [e.1.toList, e.2.toList]).foldl (fun l spec =>
        let f := specNames spec
        let key := (f.getD 0 "", f.getD 1 "")
        if l.any (fun e => decide (e.1 = key)) then l.map fun e => if e.1 = key then (key, f.getD 2 "") else e
        else l ++ [(key, f.getD 2 "")]) acc = acc ++ l.map fun e => (("", e.1), e.2) by
    simpa using h [] l hspec hd (by simp)
  clear hspec hd hp
  intro acc l
  induction l generalizing acc with
  | nil => intro _ _ _; simp
  | cons e l ih =>
    intro hspec hd hacc
    rw [List.map_cons, List.foldl_cons]
    rw [List.map_cons, List.nodup_cons] at hd
    have h1 := hspec e (List.mem_cons_self ..)
    simp only [h1]
    have hno : ¬ (acc.any fun a => decide (a.1 = (["", e.1, e.2].getD 0 "", ["", e.1, e.2].getD 1 ""))) = true := by
      rw [List.any_eq_true]
      rintro ⟨a, ha, hae⟩
      exact hacc e (List.mem_cons_self ..) a ha (by simpa using hae)
    rw [if_neg hno]
    have := ih (acc ++ [(("", e.1), e.2)]) (fun e' he' => hspec e' (List.mem_cons_of_mem _ he')) hd.2 (by
      intro e' he' a ha
      rcases List.mem_append.1 ha with ha | ha
      · exact hacc e' (List.mem_cons_of_mem _ he') a ha
      · simp only [List.mem_singleton] at ha
        subst ha
        intro h
        have : e.1 = e'.1 := by simpa using h
        exact hd.1 (this ▸ List.mem_map.2 ⟨e', he', rfl⟩))
    simpa using this

/-- The sample list of `--samples`, with its default sample. -/
def SamplesAre (l : List (String × String)) (dflt : Option String) (r : List WSSample × ℕ) : Prop :=
  (∀ (k : ℕ) (e : String × String), l[k]? = some e → r.1[k]? = some ⟨e.1, if e.2 = "" then none else some e.2⟩) ∧
  ((∃ e ∈ l, dflt = some e.1) → r.1.length = l.length ∧ ∃ s, r.1[r.2]? = some s ∧ dflt = some s.name) ∧
  ((¬ ∃ e ∈ l, dflt = some e.1) → r.1.length = l.length + 1 ∧ r.2 = l.length ∧ r.1[l.length]? = some ⟨"unassigned_background", none⟩)

/-- What `withDefault` gives: the samples are kept, and the default sample is one with this name, or a new one without normalisation. -/
theorem c88_default_sample (ss : List WSSample) (dflt : Option String) :
    (∀ (k : ℕ) (s : WSSample), ss[k]? = some s → (withDefault ss dflt).1[k]? = some s) ∧
    ((∃ s ∈ ss, dflt = some s.name) → (withDefault ss dflt).1 = ss ∧ ∃ s, ss[(withDefault ss dflt).2]? = some s ∧ dflt = some s.name) ∧
    ((¬ ∃ s ∈ ss, dflt = some s.name) → withDefault ss dflt = (ss ++ [⟨"unassigned_background", none⟩], ss.length)) := by
  have hfil : ∀ e : WSSample × ℕ, e ∈ (ss.zipIdx.filter fun e => decide (some e.1.name = dflt)) ↔ ss[e.2]? = some e.1 ∧ dflt = some e.1.name := by
    intro e
    rw [List.mem_filter, List.mem_zipIdx_iff_getElem?]
    simp [eq_comm]
  by_cases h : ∃ s ∈ ss, dflt = some s.name
  · obtain ⟨s, hs, hd⟩ := h
    obtain ⟨k, hk⟩ := List.mem_iff_getElem?.1 hs
    have hne : (ss.zipIdx.filter fun e => decide (some e.1.name = dflt)) ≠ [] := List.ne_nil_of_mem ((hfil (s, k)).2 ⟨hk, hd⟩)
    have hw : withDefault ss dflt = (ss, (((ss.zipIdx.filter fun e => decide (some e.1.name = dflt)).getLast?.map (·.2)).getD 0)) := by
      unfold withDefault
      split
      · next h0 => exact absurd h0 hne
      · rfl
    have hlast := (hfil _).1 (List.getLast_mem hne)
    rw [hw]
    refine ⟨fun _ _ h => h, fun _ => ⟨rfl, _, ?_, hlast.2⟩, fun hno => absurd ⟨s, hs, hd⟩ hno⟩
    rw [List.getLast?_eq_getLast_of_ne_nil hne]
    exact hlast.1
  · have h0 : (ss.zipIdx.filter fun e => decide (some e.1.name = dflt)) = [] := by
      rw [List.eq_nil_iff_forall_not_mem]
      intro e he
      have := (hfil e).1 he
      exact h ⟨e.1, List.mem_of_getElem? this.1, this.2⟩
    have hw : withDefault ss dflt = (ss ++ [⟨"unassigned_background", none⟩], ss.length) := by
      unfold withDefault; rw [h0]
    rw [hw]
    refine ⟨fun k s hk => ?_, fun hy => absurd hy h, fun _ => rfl⟩
    rw [List.getElem?_append_left (List.getElem?_eq_some_iff.1 hk).1]; exact hk

/-- C88.  With `--samples sample1:par1,sample2:par2,...` every channel has these samples, in this order, with these parameters of the workspace as
normalisations (none for an empty name), and the default sample is the one named by `--default-sample`, or a new one.  A parameter which is
not in the workspace is an error. -/
theorem c88_samples (vars : List String) (l : List (String × String)) (hne : l ≠ []) (hd : (l.map Prod.fst).Nodup)
    (hp : ∀ e ∈ l, PlainName e.1 ∧ PlainName e.2) (chan : String) (hch : chan ≠ "") (dflt : Option String) (pdf : WSPdf) :
    ((∀ e ∈ l, e.2 = "" ∨ e.2 ∈ vars) → ∃ np r, normparList vars (specText l) = .ok np ∧ channelSamples np chan dflt pdf = .ok r ∧ SamplesAre l dflt r) ∧
    ((∃ e ∈ l, e.2 ≠ "" ∧ e.2 ∉ vars) → normparList vars (specText l) = .error .valueError) := by
  unfold normparList
  rw [normparNames_specText l hne hd hp]
  constructor
  · intro hv
    have hnp : ((l.map fun e => ((("", e.1), e.2) : (String × String) × String)).mapM fun e => (do return (e.1, ← findVar vars e.2) : Except PyErr _)) =
        .ok (l.map fun e => (("", e.1), if e.2 = "" then none else some e.2)) := by
      rw [mapM_ok_iff, List.forall₂_map_left_iff, List.forall₂_map_right_iff, List.forall₂_same]
      intro e he
      unfold findVar
      by_cases h0 : e.2 = ""
      · simp [h0]
      · rw [if_neg h0, if_pos ((hv e he).resolve_left h0)]; simp [h0]
    refine ⟨_, withDefault (l.map fun e => ⟨e.1, if e.2 = "" then none else some e.2⟩) dflt, hnp, ?_, ?_⟩
    · unfold channelSamples
      rw [if_neg]
      · have hf : (l.map fun e => ((("", e.1), if e.2 = "" then none else some e.2) : (String × String) × Option String)).filter (fun e => decide (e.1.1 = "")) =
            l.map fun e => (("", e.1), if e.2 = "" then none else some e.2) := by
          rw [List.filter_eq_self]
          intro x hx
          obtain ⟨e, _, rfl⟩ := List.mem_map.1 hx
          simp
        rw [hf]
        obtain ⟨e0, l0, rfl⟩ := List.exists_cons_of_ne_nil hne
        simp [List.map_map, Function.comp_def]
      · intro hm
        obtain ⟨x, hx, hxe⟩ := List.mem_map.1 hm
        obtain ⟨e, _, rfl⟩ := List.mem_map.1 hx
        exact hch hxe.symm
    · obtain ⟨k1, k2, k3⟩ := c88_default_sample (l.map fun e => (⟨e.1, if e.2 = "" then none else some e.2⟩ : WSSample)) dflt
      refine ⟨fun k e hk => k1 k _ (by rw [List.getElem?_map, hk]; rfl), ?_, ?_⟩
      · rintro ⟨e, he, hde⟩
        obtain ⟨h1, s, h2, h3⟩ := k2 ⟨_, List.mem_map.2 ⟨e, he, rfl⟩, hde⟩
        exact ⟨by rw [h1, List.length_map], s, by rw [h1]; exact h2, h3⟩
      · intro hno
        rw [k3 (by
          rintro ⟨s, hs, hds⟩
          obtain ⟨e, he, rfl⟩ := List.mem_map.1 hs
          exact hno ⟨e, he, hds⟩)]
        refine ⟨by simp, by simp, ?_⟩
        dsimp only
        rw [List.getElem?_append_right (by simp)]
        simp
  · rintro ⟨e, he, h0, hno⟩
    rw [List.mapM_map]
    clear hne hd hp
    induction l with
    | nil => cases he
    | cons a l ih =>
      rw [List.mapM_cons]
      have : findVar vars a.2 = .error .valueError ∨ ∃ o, findVar vars a.2 = .ok o := by
        unfold findVar
        split_ifs
        · exact .inr ⟨_, rfl⟩
        · exact .inr ⟨_, rfl⟩
        · exact .inl rfl
      simp only [Function.comp]
      rcases this with hf | ⟨o, hf⟩
      · rw [hf]; rfl
      · rw [hf]
        rcases List.mem_cons.1 he with rfl | he
        · rw [findVar, if_neg h0, if_neg hno] at hf; cases hf
        · simp only [bind_ok, pure_ok]
          have := ih he
          simp only [pure_ok] at this
          rw [this]; rfl

/-- Finding F118: an item `channel:sample:par` of `--samples` for a channel of the workspace, the only form in the documentation of the option,
always ends in an error. -/
theorem c88_samples_named_channel (np : List ((String × String) × Option String)) (chan : String) (h : ∃ e ∈ np, e.1.1 = chan) (dflt : Option String) (pdf : WSPdf) :
    channelSamples np chan dflt pdf = .error .nameError := by
  unfold channelSamples
  rw [if_pos (List.mem_map.2 (by obtain ⟨e, he, h⟩ := h; exact ⟨e, he, h⟩))]

/-- Finding F119: an item of `--samples` with only one name is taken as the parameter of a sample without name. -/
theorem c88_single_name (p : String) (hp : PlainName p) (hne : p ≠ "") : normparNames p.toList = [(("", ""), p)] := by
  unfold normparNames
  have h1 : p.toList.filter (fun c => decide (c ≠ ' ' ∧ c ≠ '\n')) = p.toList := by
    rw [List.filter_eq_self]
    intro ch hch
    simp only [decide_eq_true_eq]
    exact ⟨by rintro rfl; exact hp.2.2.1 hch, by rintro rfl; exact hp.2.2.2 hch⟩
  have h2 : p.toList ≠ [] := by
    intro h
    exact hne (by rw [← String.ofList_toList (s := p), h])
  rw [h1, List.splitOn_eq_singleton hp.1]
  simp [h2, specNames, List.splitOn_eq_singleton hp.2.1, String.ofList_toList]

/-- Without `--samples`, a channel that is a sum of PDFs has its components as samples, with the variable that multiplies each of them, or the
only POI of the function that does, as normalisation; several or no POIs are an error.  A counting channel always ends in an error, and so
does any other PDF. -/
theorem c88_found_samples (np : List ((String × String) × Option String)) (hnp : np = []) (chan : String) (dflt : Option String) :
    channelSamples np chan dflt .poisson = .error .nameError ∧ channelSamples np chan dflt .other = .error .typeError ∧
    (∀ (comps : List (String × NormVar)) (ps : List String), List.Forall₂ (fun c p => c.2 = .var p ∨ c.2 = .func [p]) comps ps →
      channelSamples np chan dflt (.add comps) = .ok (withDefault ((comps.zip ps).map fun c => ⟨c.1.1, some c.2⟩) dflt)) ∧
    (∀ comps : List (String × NormVar), (∃ c ∈ comps, ∃ l, c.2 = .func l ∧ l.length ≠ 1) →
      channelSamples np chan dflt (.add comps) = .error .valueError) := by
  subst hnp
  have hstep : ∀ v : NormVar, (∃ l, v = .func l ∧ l.length ≠ 1) ∧ sampleNormpar v = .error .valueError ∨
      (¬ ∃ l, v = .func l ∧ l.length ≠ 1) ∧ ∃ p, sampleNormpar v = .ok p := by
    intro v
    match v with
    | .var p => exact .inr ⟨(by rintro ⟨l, h, _⟩; cases h), p, rfl⟩
    | .func [p] => exact .inr ⟨(by rintro ⟨l, h, hl⟩; cases h; simp at hl), p, rfl⟩
    | .func [] => exact .inl ⟨⟨[], rfl, by simp⟩, rfl⟩
    | .func (p :: q :: l) => exact .inl ⟨⟨p :: q :: l, rfl, by simp⟩, rfl⟩
  refine ⟨rfl, rfl, fun comps ps h => ?_, fun comps h => ?_⟩
  · simp only [channelSamples, List.map_nil, List.not_mem_nil, if_false, List.filter_nil, pdfSamples]
    have : comps.mapM (fun c => (do return (⟨c.1, some (← sampleNormpar c.2)⟩ : WSSample) : Except PyErr WSSample)) =
        .ok ((comps.zip ps).map fun c => (⟨c.1.1, some c.2⟩ : WSSample)) := by
      induction h with
      | nil => rfl
      | cons hab _ ih =>
        rw [List.mapM_cons, ih]
        rcases hab with h | h <;> · rw [h]; rfl
    rw [this]; rfl
  · simp only [channelSamples, List.map_nil, List.not_mem_nil, if_false, List.filter_nil, pdfSamples]
    have : comps.mapM (fun c => (do return (⟨c.1, some (← sampleNormpar c.2)⟩ : WSSample) : Except PyErr WSSample)) = .error .valueError := by
      obtain ⟨c, hc, hl⟩ := h
      induction comps with
      | nil => cases hc
      | cons a comps ih =>
        rw [List.mapM_cons]
        rcases hstep a.2 with ⟨_, h1⟩ | ⟨h1, p, h2⟩
        · rw [h1]; rfl
        · rw [h2]
          rcases List.mem_cons.1 hc with rfl | hc
          · exact absurd hl h1
          · rw [ih hc]; rfl
    rw [this]; rfl

/-! ## Output -/

/-- C88.  Exactly the samples with a yield different from 0 in some bin are written, in their order. -/
theorem c88_written (yields : List (List ℝ)) : (∀ y i, (y, i) ∈ written yields ↔ yields[i]? = some y ∧ ∃ x ∈ y, x ≠ 0) ∧
    (written yields).Sublist yields.zipIdx := by
  refine ⟨fun y i => ?_, List.filter_sublist⟩
  unfold written
  rw [List.mem_filter, List.mem_zipIdx_iff_getElem?]
  simp [emptySample]

/-- C88.  The normalisation that is written is the parameter of the workspace if it is a POI or an NP of the model, with its value; otherwise 1. -/
theorem c88_norm (pois nps : List String) (s : WSSample) (x : ℝ) :
    (∀ p, s.normpar = some p → (p ∈ pois ∨ p ∈ nps) → writtenNorm pois nps s x = (.expr p, some x)) ∧
    ((∀ p, s.normpar = some p → p ∉ pois ∧ p ∉ nps) → writtenNorm pois nps s x = (.number 1, none)) := by
  unfold writtenNorm
  constructor
  · intro p hp h; rw [hp]; exact if_pos h
  · intro h
    rcases hp : s.normpar with _ | p
    · rfl
    · exact if_neg fun h2 => h2.elim (h p hp).1 (h p hp).2

theorem dropEmpty_full {α : Type} : ∀ (l : List (List ℝ × ℕ)) (data : List α), (∀ e ∈ l, emptySample e.1 = false) → dropEmpty l data = data := by
  intro l
  induction l with
  | nil => intro data _; rfl
  | cons e l ih =>
    intro data h
    obtain ⟨y, i⟩ := e
    rw [dropEmpty, h _ (List.mem_cons_self ..)]
    exact ih data fun e he => h e (List.mem_cons_of_mem _ he)

/-- C88.  With at most one empty sample, the validation data are those of the samples that are written. -/
theorem c88_validation {α : Type} (pre post : List (List ℝ × α)) (y : List ℝ × α) (hpre : ∀ e ∈ pre, ∃ x ∈ e.1, x ≠ 0) (hpost : ∀ e ∈ post, ∃ x ∈ e.1, x ≠ 0) :
    validation ((pre ++ post).map Prod.fst) ((pre ++ post).map Prod.snd) = (pre ++ post).map Prod.snd ∧
    ((∀ x ∈ y.1, x = 0) → validation ((pre ++ y :: post).map Prod.fst) ((pre ++ y :: post).map Prod.snd) = (pre ++ post).map Prod.snd) := by
  have full : ∀ (l : List (List ℝ × α)) (k : ℕ), (∀ e ∈ l, ∃ x ∈ e.1, x ≠ 0) → ∀ e ∈ (l.map Prod.fst).zipIdx k, emptySample e.1 = false := by
    intro l k hl e he
    obtain ⟨y, i⟩ := e
    have := (List.mem_zipIdx_iff_le_and_getElem?_sub.1 he).2
    obtain ⟨d, hd, rfl⟩ := List.mem_map.1 (List.mem_of_getElem? this)
    obtain ⟨x, hx, hx0⟩ := hl d hd
    rw [← Bool.not_eq_true]
    intro hc
    simp only [emptySample, List.all_eq_true, decide_eq_true_eq] at hc
    exact hx0 (hc x hx)
  constructor
  · apply dropEmpty_full
    apply full
    intro e he
    rcases List.mem_append.1 he with he | he
    · exact hpre e he
    · exact hpost e he
  · intro hy
    have hyE : emptySample y.1 = true := by simpa [emptySample, List.all_eq_true] using hy
    unfold validation
    rw [List.map_append, List.zipIdx_append, List.map_cons, List.zipIdx_cons]
    have happ : ∀ (l l' : List (List ℝ × ℕ)) (data : List α), dropEmpty (l ++ l') data = dropEmpty l' (dropEmpty l data) := by
      intro l
      induction l with
      | nil => intro l' data; rfl
      | cons e l ih => intro l' data; exact ih l' _
    rw [happ, dropEmpty_full _ _ (full pre 0 hpre), dropEmpty, hyE, if_pos rfl, dropEmpty_full _ _ (full post _ hpost)]
    rw [List.map_append, List.map_append, List.map_cons]
    have hl : 0 + (pre.map Prod.fst).length = (pre.map Prod.snd).length := by simp
    rw [hl, List.take_left, ← List.drop_drop, List.drop_left]
    rfl

/-- Finding F122: with two empty samples the second one is removed at its old position: if the first two samples are empty, the validation
data of the third one are lost, and those of the second one, which is not written, are kept in their place. -/
theorem c88_validation_two_empty {α : Type} (y0 y1 y2 : List ℝ) (ys : List (List ℝ)) (d0 d1 d2 : α) (ds : List α)
    (h0 : ∀ x ∈ y0, x = 0) (h1 : ∀ x ∈ y1, x = 0) (h2 : ∃ x ∈ y2, x ≠ 0) (hs : ∀ y ∈ ys, ∃ x ∈ y, x ≠ 0) :
    validation (y0 :: y1 :: y2 :: ys) (d0 :: d1 :: d2 :: ds) = d1 :: ds ∧ (written (y0 :: y1 :: y2 :: ys)).map Prod.snd = List.range' 2 (ys.length + 1) := by
  have e0 : emptySample y0 = true := by simpa [emptySample, List.all_eq_true] using h0
  have e1 : emptySample y1 = true := by simpa [emptySample, List.all_eq_true] using h1
  have full : ∀ e ∈ (y2 :: ys).zipIdx 2, emptySample e.1 = false := by
    intro e he
    obtain ⟨y, i⟩ := e
    have := (List.mem_zipIdx_iff_le_and_getElem?_sub.1 he).2
    have hy : ∃ x ∈ y, x ≠ 0 := by
      rcases List.mem_cons.1 (List.mem_of_getElem? this) with rfl | hy
      · exact h2
      · exact hs y hy
    obtain ⟨x, hx, hx0⟩ := hy
    rw [← Bool.not_eq_true]
    intro hc
    simp only [emptySample, List.all_eq_true, decide_eq_true_eq] at hc
    exact hx0 (hc x hx)
  constructor
  · unfold validation
    rw [List.zipIdx_cons, List.zipIdx_cons, dropEmpty, e0, if_pos rfl, dropEmpty, e1, if_pos rfl, dropEmpty_full _ _ full]
    simp
  · unfold written
    rw [List.zipIdx_cons, List.zipIdx_cons, List.filter_cons_of_neg (by simp [e0]), List.filter_cons_of_neg (by simp [e1]),
      List.filter_eq_self.2 (fun e he => by rw [full e he]; rfl)]
    rw [List.zipIdx_map_snd]
    simp

/-! ## Variations -/

/-- C88.  `--variations v1,v2,...`: each variation with both signs. -/
theorem c88_variations (L : Lib) (ts : List Str) (vs : List ℝ) (hne : ts ≠ []) (hsep : ∀ t ∈ ts, ',' ∉ t)
    (h : List.Forall₂ (fun t v => L.float t = some v) ts vs) :
    variations L ([','].intercalate ts) = .ok (vs.flatMap fun v => [v, -v]) ∧
    ∀ x, x ∈ (vs.flatMap fun v => [v, -v]) ↔ x ∈ vs ∨ -x ∈ vs := by
  constructor
  · unfold variations
    rw [List.splitOn_intercalate _ hsep hne]
    have : ts.mapM L.float = some vs := by
      clear hne hsep
      induction h with
      | nil => rfl
      | cons hab _ ih => rw [List.mapM_cons, hab, ih]; rfl
    rw [this]
  · intro x
    simp only [List.mem_flatMap, List.mem_cons, List.not_mem_nil, or_false]
    constructor
    · rintro ⟨v, hv, rfl | rfl⟩
      · exact .inl hv
      · exact .inr (by rwa [neg_neg])
    · rintro (hv | hv)
      · exact ⟨x, hv, .inl rfl⟩
      · exact ⟨-x, hv, .inr (neg_neg x).symm⟩

/-- A free parameter is moved by its uncertainty, which must be positive; a constrained one by 1. -/
theorem c88_deviation (isFree : Bool) (err e : ℝ) : parError isFree err = .ok e ↔ (isFree = true ∧ 0 < err ∧ e = err) ∨ (isFree = false ∧ e = 1) := by
  unfold parError
  cases isFree
  · simp [eq_comm]
  · by_cases h : err ≤ 0
    · simp [h, not_lt.2 h]
    · simp [h, not_le.1 h, eq_comm]

/-! ## Examples -/

/-- `--samples Sig:mu,Bkg:nB,SS: --default-sample SS`: three samples, and the last one is the default. -/
example : ∃ np r, normparList ["mu", "nB"] "Sig:mu,Bkg:nB,SS:".toList = .ok np ∧ channelSamples np "ch" (some "SS") .poisson = .ok r ∧
    r.1[0]? = some ⟨"Sig", some "mu"⟩ ∧ r.1[2]? = some ⟨"SS", none⟩ ∧ r.1.length = 3 := by
  obtain ⟨np, r, h1, h2, h3⟩ := (c88_samples ["mu", "nB"] [("Sig", "mu"), ("Bkg", "nB"), ("SS", "")] (by simp) (by decide)
    (by simp [PlainName]) "ch" (by decide) (some "SS") .poisson).1 (by simp)
  have ht : specText [("Sig", "mu"), ("Bkg", "nB"), ("SS", "")] = "Sig:mu,Bkg:nB,SS:".toList := by decide
  rw [ht] at h1
  refine ⟨np, r, h1, h2, ?_, ?_, (h3.2.1 ⟨("SS", ""), by simp, rfl⟩).1⟩
  · simpa using h3.1 0 ("Sig", "mu") rfl
  · simpa using h3.1 2 ("SS", "") rfl

/-- `--channels 0:first,c` for the categories `a`, `b`, `c`. -/
example : userChannels "0:first,c".toList = [("0", "first"), ("c", "")] ∧
    channelNames [("0", "first"), ("c", "")] ["a", "b", "c"] = [("first", 0), ("c", 2)] := by
  constructor
  · have : ("0:first,c".toList).splitOn ',' = ["0:first".toList, "c".toList] := by decide
    have h1 : ("0:first".toList).splitOn ':' = ["0".toList, "first".toList] := by decide
    have h2 : ("c".toList).splitOn ':' = ["c".toList] := by decide
    simp only [userChannels, this, List.foldl_cons, List.foldl_nil, h1, h2]
    decide
  · decide

/-- Finding F122 in an example: the samples 0 and 1 are empty. -/
example : validation [[0, 0], [0], [3]] ["s0", "s1", "s2"] = ["s1"] :=
  (c88_validation_two_empty [0, 0] [0] [3] [] "s0" "s1" "s2" [] (by simp) (by simp) (by simp) (by simp)).1

end Verif.Props
