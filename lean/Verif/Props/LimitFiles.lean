import Verif.Props.LimitScript
/-!
# C80: the files read by `compute_limits`
-/
namespace Verif.Props
open LimScr

/-- C80: the fits file.  The points are those of the part `data`, and each has as Asimov value the test statistic at the same
position of the part `asimov`, which must have the same length. -/
theorem c80_fits_file (h : List String → ℕ) (m : ParModel ℝ) (f : FitsFile) (r : Raster)
    (hload : Raster.loadWithAsimov h m f = .ok r) :
    ∃ l la r0 a, f.data = some l ∧ f.asimov = some la ∧ Raster.loadDict h m l = .ok r0 ∧ Raster.loadDict h m la = .ok a ∧
      r0.length = a.length ∧
      List.Forall₂ (fun (x : (Hypo × REntry) × Hypo × REntry) e => e.1 = x.1.1 ∧ e.2.data.hypo = x.1.2.data.hypo ∧
        ∃ t, Dict.get? x.2.2.data.testStats "tmu" = some t ∧ Dict.get? e.2.data.testStats "tmu_A0" = some t) (r0.zip a) r := by
  unfold Raster.loadWithAsimov at hload
  obtain ⟨l, hl, c1⟩ := bind_eq_ok.1 hload
  obtain ⟨r0, h0, c2⟩ := bind_eq_ok.1 c1
  obtain ⟨la, hla, c3⟩ := bind_eq_ok.1 c2
  obtain ⟨a, ha, c4⟩ := bind_eq_ok.1 c3
  obtain ⟨r1, h1, hr⟩ := bind_eq_ok.1 c4
  have part : ∀ {o : Option (List (Dict (MVal ℝ)))} {l}, FitsFile.part o = .ok l → o = some l := by
    intro o l ho
    cases o with
    | none => cases ho
    | some x => exact congrArg some (Except.ok.inj (ε := PyErr) ho)
  unfold Raster.setAsimov at h1
  have hlen : r0.length = a.length := by
    by_contra hne
    rw [if_pos hne] at h1
    cases h1
  rw [if_neg (by simpa using hlen)] at h1
  refine ⟨l, la, r0, a, part hl, part hla, h0, ha, hlen, ?_⟩
  have h2 := mapM_ok_iff.1 h1
  have h3 := Raster.init_spec hr
  clear hr h1 h0 ha hlen c4 c3 c2 c1 hload
  generalize r0.zip a = z at h2
  induction h2 generalizing r with
  | nil => cases h3; exact .nil
  | @cons x e z r1 hx _ ih =>
    cases h3 with
    | @cons _ y _ r hy hys =>
      refine .cons ?_ (ih _ hys)
      obtain ⟨d, hd, he⟩ := bind_eq_ok.1 hx
      have he' := Except.ok.inj (ε := PyErr) he
      subst he'
      obtain ⟨t, ht, hd⟩ := bind_eq_ok.1 hd
      have hd' := Except.ok.inj (ε := PyErr) hd
      subst hd'
      obtain ⟨k1, A, B, k2, k3⟩ := hy
      refine ⟨k1, by rw [k3], t, Dict.getItem_ok.1 ht, ?_⟩
      rw [k3]
      dsimp only
      rw [Dict.get?_set_ne _ _ (by decide), Dict.get?_set_self]

/-- C80: options that are refused.  A run goes on only for one of the two statistics, and only for a scan of a single POI. -/
theorem c80_refused_options (h : List String → ℕ) (L : Cmd.Lib) (run : Run) (x : Raster × Raster × List (Pars ℝ))
    (hx : rasters h L run = .ok x) :
    (run.testStat = "q~mu" ∨ run.testStat = "q_mu") ∧
      ∀ r, Raster.loadWithAsimov h run.c.m run.fits = .ok r → (Raster.haveCompatiblePois (r.map Prod.fst)).length ≤ 1 := by
  unfold rasters at hx
  obtain ⟨r, hr, hx⟩ := bind_eq_ok.1 hx
  obtain ⟨gens, _, hx⟩ := bind_eq_ok.1 hx
  obtain ⟨k, hk, _⟩ := bind_eq_ok.1 hx
  unfold calcKind at hk
  by_cases h1 : run.testStat = "q~mu"
  · rw [if_pos h1] at hk
    refine ⟨Or.inl h1, fun r' hr' => ?_⟩
    obtain rfl : r' = r := Except.ok.inj (ε := PyErr) (hr'.symm.trans hr)
    by_contra hn
    rw [if_pos (by omega)] at hk
    cases hk
  · rw [if_neg h1] at hk
    by_cases h2 : run.testStat = "q_mu"
    · rw [if_pos h2] at hk
      refine ⟨Or.inr h2, fun r' hr' => ?_⟩
      obtain rfl : r' = r := Except.ok.inj (ε := PyErr) (hr'.symm.trans hr)
      by_contra hn
      rw [if_pos (by omega)] at hk
      cases hk
    · rw [if_neg h2] at hk
      cases hk

/-! ### Files with too few toys -/

theorem oneHypo_keeps {f g : String} {n : ℕ} {brk : Bool} {out : Except PyErr (List ℝ)} {d : Dir} {c : Lock.Content}
    (hg : d.files g = some c) : (oneHypo f n brk out d).1.files g = some c := by
  unfold oneHypo
  cases hf : d.files f with
  | some c' =>
    dsimp only
    split <;> exact hg
  | none =>
    have hne : g ≠ f := by rintro rfl; rw [hf] at hg; cases hg
    dsimp only
    split
    · exact hg
    · split
      · exact hg
      · dsimp only
        rw [Function.update_of_ne hne]
        exact hg

theorem genSave_short (h : List String → ℕ) (fname : Hypo → String) (n : ℕ) (brk : Bool) (a : Hypo) (s : List ℝ) (hn : s.length < n) :
    ∀ (l : List (Hypo × Except PyErr (List ℝ))) (d : Dir) (acc : HDict (List ℝ)), a ∈ l.map Prod.fst →
      d.files (fname a) = some (.complete s) → ∃ d' e, genSave h fname n brk l d acc = (d', .error e) := by
  intro l
  induction l with
  | nil => intro d acc ha; simp at ha
  | cons x l ih =>
    intro d acc ha hd
    obtain ⟨b, out⟩ := x
    by_cases hb : b = a
    · subst hb
      have : oneHypo (fname b) n brk out d = (d, .error .ioError) := by
        unfold oneHypo
        rw [hd]
        dsimp only [Lock.Content.read]
        have : SampDist.load (SampDist.init n none) (some s) = .error .ioError := by
          unfold SampDist.load
          dsimp only
          rw [if_pos (by simp [SampDist.init]; omega)]
        rw [this]
      exact ⟨d, .ioError, by unfold genSave; rw [this]⟩
    · have ha' : a ∈ l.map Prod.fst := by
        simp only [List.map_cons, List.mem_cons] at ha
        exact ha.resolve_left fun hh => hb hh.symm
      have hk := oneHypo_keeps (f := fname b) (n := n) (brk := brk) (out := out) hd
      unfold genSave
      generalize oneHypo (fname b) n brk out d = z at hk
      obtain ⟨d', o⟩ := z
      cases o with
      | error e => exact ⟨d', e, rfl⟩
      | ok o =>
        cases o with
        | none => exact ih d' acc ha' hk
        | some s' => exact ih d' _ ha' hk

/-- C80: a file of signal-plus-background samples with fewer toys than requested stops the run: no results are computed. -/
theorem c80_too_few (B : Libs) (h : List String → ℕ) (run : Run) (plan : Plan)
    (out : List (Except PyErr (List ℝ) × Except PyErr (List ℝ))) (hout : out.length = plan.hypos.length) (d : Dir) (a : Hypo)
    (ha : a ∈ plan.hypos) (s : List ℝ) (hs : s.length < run.ntoys)
    (hd : d.files (fileName B.g B.root a) = some (.complete s) ∨ d.files (fileName B.g (B.root ++ "_clb") a) = some (.complete s)) :
    ∃ d' e, sampleAndFinish B h run plan out d = (d', .error e) := by
  have hz : ∀ f : Except PyErr (List ℝ) × Except PyErr (List ℝ) → Except PyErr (List ℝ),
      a ∈ (plan.hypos.zip (out.map f)).map Prod.fst := by
    intro f
    rw [List.map_fst_zip (by simp [hout])]
    exact ha
  unfold sampleAndFinish
  rw [if_neg (List.ne_nil_of_mem ha)]
  rcases hd with hd | hd
  · obtain ⟨d', e, he⟩ := genSave_short h (fileName B.g B.root) run.ntoys run.breakLocks a s hs _ d [] (hz Prod.fst) hd
    exact ⟨d', e, by rw [he]⟩
  · have keep : ∀ (fname : Hypo → String) (l : List (Hypo × Except PyErr (List ℝ))) (d : Dir) (acc : HDict (List ℝ)) (g : String)
        (c : Lock.Content), d.files g = some c → (genSave h fname run.ntoys run.breakLocks l d acc).1.files g = some c := by
      intro fname l
      induction l with
      | nil => intro d acc g c hg; exact hg
      | cons x l ih =>
        intro d acc g c hg
        obtain ⟨b, o⟩ := x
        have hk := oneHypo_keeps (f := fname b) (n := run.ntoys) (brk := run.breakLocks) (out := o) hg
        unfold genSave
        generalize oneHypo (fname b) run.ntoys run.breakLocks o d = z at hk
        obtain ⟨d', o⟩ := z
        cases o with
        | error e => exact hk
        | ok o =>
          cases o with
          | none => exact ih d' acc g c hk
          | some s' => exact ih d' _ g c hk
    have hk := keep (fileName B.g B.root) (plan.hypos.zip (out.map Prod.fst)) d [] _ _ hd
    generalize genSave h (fileName B.g B.root) run.ntoys run.breakLocks (plan.hypos.zip (out.map Prod.fst)) d [] = z at hk
    obtain ⟨d1, o⟩ := z
    cases o with
    | error e => exact ⟨d1, e, rfl⟩
    | ok sb =>
      obtain ⟨d', e, he⟩ := genSave_short h (fileName B.g (B.root ++ "_clb")) run.ntoys run.breakLocks a s hs _ d1 [] (hz Prod.snd) hk
      exact ⟨d', e, by dsimp only; rw [he]⟩

/-! ### Names of the files -/

theorem fileName_chars (g : ℝ → String) (root : String) (a : Hypo) (hg : ∀ x, '_' ∉ (g x).toList) :
    (fileName g root a).toList.splitOn '_' = root.toList.splitOn '_' ++ (Dict.values a).map fun v => (g v).toList := by
  unfold fileName
  rw [String.toList_intercalate, List.map_cons, List.map_map]
  cases hv : Dict.values a with
  | nil => simp [List.intercalate]
  | cons v vs =>
    have hne : ((v :: vs).map (String.toList ∘ g)) ≠ [] := by simp
    rw [show ("_" : String).toList = ['_'] from rfl, List.intercalate_cons_of_ne_nil hne, List.append_assoc,
      List.singleton_append, List.splitOn_append_cons_self, List.splitOn_intercalate _ _ hne]
    · rfl
    · intro l hl
      obtain ⟨x, _, rfl⟩ := List.mem_map.1 hl
      exact hg x

/-- C80: names of the files.  If the texts of the values contain no underscore, and those of different values in the scan
differ, then hypotheses with the same POIs have files of their own, and the files of the background samples are not those of
the other ones. -/
theorem c80_file_names (g : ℝ → String) (hg : ∀ x, '_' ∉ (g x).toList) (root : String) (a b : Hypo)
    (hk : Dict.keys a = Dict.keys b) :
    ((∀ x ∈ Dict.values a, ∀ y ∈ Dict.values b, g x = g y → x = y) → fileName g root a = fileName g root b → a = b) ∧
      fileName g root a ≠ fileName g (root ++ "_clb") b := by
  have hlen : a.length = b.length := by simpa [Dict.keys] using congrArg List.length hk
  constructor
  · intro hi he
    have h1 := congrArg (fun s => s.toList.splitOn '_') he
    rw [fileName_chars g root a hg, fileName_chars g root b hg] at h1
    have h2 := List.append_cancel_left h1
    clear h1 he
    induction a generalizing b with
    | nil => cases b with
      | nil => rfl
      | cons y b => simp at hlen
    | cons x a ih => cases b with
      | nil => simp at hlen
      | cons y b =>
        obtain ⟨k, v⟩ := x
        obtain ⟨k', v'⟩ := y
        simp only [Dict.keys, List.map_cons, List.cons.injEq] at hk
        simp only [Dict.values, List.map_cons, List.cons.injEq] at h2
        have := hi v (by simp [Dict.values]) v' (by simp [Dict.values]) (String.toList_injective h2.1)
        rw [hk.1, this, ih b hk.2 (by simpa using hlen) (fun p hp q hq => hi p (by simp [Dict.values] at hp ⊢; exact Or.inr hp)
          q (by simp [Dict.values] at hq ⊢; exact Or.inr hq)) h2.2]
  · intro he
    have h1 := congrArg (fun s => (s.toList.splitOn '_').length) he
    rw [fileName_chars g root a hg, fileName_chars g _ b hg, String.toList_append,
      show ("_clb" : String).toList = '_' :: ['c', 'l', 'b'] from rfl, List.splitOn_append_cons_self,
      List.splitOn_eq_singleton (xs := ['c', 'l', 'b']) (by decide)] at h1
    simp only [Dict.values, List.length_append, List.length_map, List.length_singleton] at h1
    omega

/-- With values as texts without exponents or signs, for instance. -/
example : (∀ x : ℝ, '_' ∉ ((fun x : ℝ => if x = 1 then "1" else "2") x).toList) ∧
    Dict.keys ([("mu", 1)] : Hypo) = Dict.keys ([("mu", 2)] : Hypo) ∧
    (fun x : ℝ => if x = 1 then "1" else "2") 1 ≠ (fun x : ℝ => if x = 1 then "1" else "2") 2 := by
  refine ⟨fun x => ?_, rfl, by norm_num; decide⟩
  dsimp only
  split <;> decide

/-- `c80_fits_file` and `c80_refused_options` apply to the file and the run of the other examples. -/
example (L : Cmd.Lib) (n : ℕ) : (∃ r, Raster.loadWithAsimov LimDemo.h0 oneSetup.m ⟨some [LimDemo.pointOut], some [LimDemo.pointOut]⟩ = .ok r) ∧
    ∃ x, rasters LimDemo.h0 L (LimDemo.theRun n) = .ok x := by
  refine ⟨⟨_, LimDemo.load_all⟩, ?_⟩
  obtain ⟨plan, hp, _⟩ := LimDemo.prepared L n
  obtain ⟨x, hx, _⟩ := bind_eq_ok.1 hp
  exact ⟨x, hx⟩

/-- `c80_too_few`: a file with one toy for the first hypothesis, where two are requested. -/
example (B : Libs) (h : List String → ℕ) (t : Smp) : ∃ d' e, sampleAndFinish B h (LimDemo.theRun 2)
    ⟨LimDemo.raster, LimDemo.raster, [(t, t)]⟩ [(.ok [1, 2], .ok [1, 2])]
    ⟨fun f => if f = fileName B.g B.root t.cfg.testHypo then some (.complete [1]) else none, fun _ => false⟩ = (d', .error e) :=
  c80_too_few B h _ _ _ (by simp [Plan.hypos]) _ t.cfg.testHypo (by simp [Plan.hypos]) [1] (by simp [LimDemo.theRun])
    (Or.inl (by simp))

end Verif.Props
