import Verif.Model.PlotValid
import Verif.Props.Expected
import Verif.Props.Yields
import Verif.Props.DumpSamples
/-!
# C91: the plots that check the linearity of the impacts
-/
namespace Verif.Props
open Verif Verif.Valid
variable {n P : Nat}

/-- The same model with the other form of the impacts; the arrays of coefficients stay as they are. -/
def withForm (m : Mdl n P) (linear : Bool) : Mdl n P := { m with use_linear_nps := linear }

theorem yieldAt_form (m : Mdl n P) (hn : (m.channels.map (·.name)).Nodup) (hsh : m.YieldsShaped) (A : Mdl.Arrays)
    (pre post : List Channel) (ch : Channel) (hch : m.channels = pre ++ ch :: post)
    (hd : (ch.samples.map (·.name)).Nodup) (s : Nat) (smp : Sample) (hs : ch.samples[s]? = some smp) (b : Nat)
    (hb : b < ch.nbins) (x : Fin n → ℝ) (θ0 : Fin P → ℝ) (y0 : ℝ)
    (h : yieldAt m A (x, θ0) ch.name smp.name b = .ok y0) :
    ∃ base, ∀ (lin : Bool) (θ : Fin P → ℝ), yieldAt (withForm m lin) A (x, θ) ch.name smp.name b =
      .ok (base * (withForm m lin).cutKExp A θ s ((pre.map (·.nbins)).sum + b)) := by
  have hne : ∃ ne, m.nExp A x θ0 = .ok ne := by
    unfold yieldAt at h
    obtain ⟨a, h1, _⟩ := bind_eq_ok.1 h
    unfold Mdl.channelNExp at h1
    obtain ⟨a', h2, _⟩ := bind_eq_ok.1 h1
    rcases hx : m.nExp A x θ0 with e | ne
    · rw [hx] at h2; cases h2
    · exact ⟨ne, rfl⟩
  obtain ⟨ne, hne⟩ := hne
  unfold Mdl.nExp at hne
  obtain ⟨vals, hvals, hne⟩ := bind_eq_ok.1 hne
  obtain ⟨rows0, hrows, _⟩ := bind_eq_ok.1 hne
  have hnorm : ∀ (lin : Bool) (θ : Fin P → ℝ), ∃ v, smp.norm.value vals = .ok v ∧
      yieldAt (withForm m lin) A (x, θ) ch.name smp.name b =
        .ok (v / smp.nominal_norm * smp.nominal_yields.getD b 0 *
          (withForm m lin).cutKExp A θ s ((pre.map (·.nbins)).sum + b)) := by
    intro lin θ
    have hne' : (withForm m lin).nExp A x θ =
        .ok (fun s b => (rows0.getD s []).getD b 0 * (withForm m lin).cutKExp A θ s b) := by
      unfold Mdl.nExp
      rw [show (withForm m lin).ctx.realVals x = .ok vals from hvals, bind_ok,
        show (withForm m lin).stackRows (fun s => s.yields vals) = .ok rows0 from hrows, bind_ok]
      rfl
    obtain ⟨rows, h1, h2, h3, h4, _⟩ := c77_channel_rows (withForm m lin) hn hsh A x θ _ hne' pre post ch hch
    obtain ⟨rows', r, g1, g2, g3⟩ := (c77_sample_row (withForm m lin) hn A x θ _ hne' ch
      (show ch ∈ m.channels by rw [hch]; simp) hd).1 s smp hs
    rw [h1] at g2
    cases Mdl.Arr.mat.inj (Except.ok.inj (ε := PyErr) g2)
    obtain ⟨vals', v, k1, k2, k3⟩ := h4 s smp hs b hb
    rw [show (withForm m lin).ctx.realVals x = .ok vals from hvals] at k1
    cases Except.ok.inj (ε := PyErr) k1
    refine ⟨v, k2, ?_⟩
    unfold yieldAt
    rw [g3, bind_ok]
    dsimp only
    have hlen : r.length = ch.nbins := h3 r (List.mem_of_getElem? g1)
    rw [← k3, List.getD_eq_getElem?_getD (l := rows), g1]
    simp only [Option.getD_some]
    rw [pyIndex_ok]
    refine ⟨b, ?_, Or.inl rfl⟩
    rw [List.getElem?_eq_getElem (by omega), List.getD_eq_getElem?_getD, List.getElem?_eq_getElem (by omega)]
    rfl
  obtain ⟨v, hv, _⟩ := hnorm false 0
  refine ⟨v / smp.nominal_norm * smp.nominal_yields.getD b 0, fun lin θ => ?_⟩
  obtain ⟨v', hv', h'⟩ := hnorm lin θ
  rw [hv] at hv'
  cases Except.ok.inj (ε := PyErr) hv'
  exact h'

theorem setPar_np (m : Mdl n P) (x0 : Fin n → ℝ) (p : Fin P) (x : ℝ) (hpoi : ∀ i, m.pois i ≠ (m.nps p).name)
    (hnp : ∀ q, (m.nps q).name = (m.nps p).name → q = p) :
    setPar m x0 (m.nps p).name x = .ok (x0, Function.update 0 p x) := by
  unfold setPar
  rw [List.find?_eq_none.2 (by intro i _; simpa using hpoi i)]
  dsimp only
  have : (List.finRange P).find? (fun q => (m.nps q).name == (m.nps p).name) = some p := by
    rcases hf : (List.finRange P).find? (fun q => (m.nps q).name == (m.nps p).name) with _ | q
    · have := List.find?_eq_none.1 hf p (List.mem_finRange p)
      simp at this
    · have := List.find?_some hf
      rw [hnp q (by simpa using this)]
  rw [this]

theorem curve_ok {f : ℝ → Except PyErr ℝ} {xs : List ℝ} {l : List (ℝ × ℝ)} (g : ℝ → ℝ)
    (h : curve f xs = .ok l) (hg : ∀ x y, f x = .ok y → y = g x) : l = xs.map fun x => (x, g x) := by
  unfold curve at h
  have := mapM_ok_iff.1 h
  clear h
  induction this with
  | nil => rfl
  | cons hr _ ih =>
    obtain ⟨y, hy, e⟩ := bind_eq_ok.1 hr
    cases Except.ok.inj (ε := PyErr) e
    rw [List.map_cons, ih, hg _ _ hy]

/-- The channel or sample that is shown: the one with the name of the option, or the first one. -/
def Picked {α : Type} (name : α → String) (opt : Option String) (l : List α) (a : α) : Prop :=
  match opt with
  | some s => a ∈ l ∧ name a = s
  | none => l.head? = some a

/-- The panel `Pn` is drawn for the bin `b` and the parameter `par`. -/
def Shows (L : Cmd.Lib) (o : Valid.Opts) (m : Mdl n P) (f : File) (b : Int) (par : String) (Pn : Panel) : Prop :=
  ∃ (pss : List (List Panel)) (bs : List Int) (i j : ℕ) (row : List Panel), Valid.run L o m f = .ok pss ∧ Valid.bins L o = .ok bs ∧ bs[i]? = some b ∧
    (npNames m o)[j]? = some par ∧ pss[i]? = some row ∧ row[j]? = some Pn

theorem select_picked {α : Type} {name : α → String} {opt : Option String} {l : List α} {a a' : α}
    (hn : (l.map name).Nodup) (h : select name opt l = .ok a) (hp : Picked name opt l a') : a = a' := by
  unfold select at h
  unfold Picked at hp
  cases opt with
  | none =>
    dsimp only at h hp
    cases l with
    | nil => cases h
    | cons x t => cases Except.ok.inj (ε := PyErr) h; exact Option.some.inj hp
  | some s =>
    dsimp only at h hp
    rcases hf : l.find? (fun a => name a == s) with _ | x
    · rw [hf] at h; cases h
    · rw [hf] at h
      cases Except.ok.inj (ε := PyErr) h
      have h1 := List.find?_some hf
      exact List.inj_on_of_nodup_map hn (List.mem_of_find?_eq_some hf) hp.1 (by rw [hp.2]; simpa using h1)

theorem forall2_get {α β : Type} {R : α → β → Prop} {l : List α} {l' : List β} (h : List.Forall₂ R l l') {i : ℕ} {a : α}
    {b : β} (ha : l[i]? = some a) (hb : l'[i]? = some b) : R a b := by
  obtain ⟨h1, rfl⟩ := List.getElem?_eq_some_iff.1 ha
  obtain ⟨h2, rfl⟩ := List.getElem?_eq_some_iff.1 hb
  exact List.Forall₂.get h (i := i) h1 h2

/-- Where a panel comes from. -/
theorem shows_panel {L : Cmd.Lib} {o : Valid.Opts} {m : Mdl n P} {f : File} {b : Int} {par : String} {Pn : Panel}
    (h : Shows L o m f b par Pn) (hn : (m.channels.map (·.name)).Nodup) {ch : Channel}
    (hch : Picked (·.name) o.channel m.channels ch) (hd : (ch.samples.map (·.name)).Nodup) {smp : Sample}
    (hs : Picked (·.name) o.sample ch.samples smp) :
    ∃ A d, m.setInternal = .ok A ∧ load f ((List.finRange n).map m.pois) (m.channels.map (·.name))
        ((List.finRange P).map fun p => (m.nps p).name) = .ok d ∧
      panel (adjust m o.cutoff o.symmetric) A d ch smp b par = .ok Pn := by
  obtain ⟨pss, bs, i, j, row, h1, h2, h3, h4, h5, h6⟩ := h
  unfold Valid.run at h1
  rw [h2, bind_ok] at h1
  obtain ⟨A, hA, h1⟩ := bind_eq_ok.1 h1
  obtain ⟨ch', hc, h1⟩ := bind_eq_ok.1 h1
  obtain ⟨smp', hsm, h1⟩ := bind_eq_ok.1 h1
  obtain ⟨d, hdd, h1⟩ := bind_eq_ok.1 h1
  have e1 : ch' = ch := select_picked (l := m.channels) hn hc hch
  subst e1
  have e2 : smp' = smp := select_picked hd hsm hs
  subst e2
  split at h1
  · cases h1
  · refine ⟨A, d, hA, hdd, ?_⟩
    have g1 := forall2_get (mapM_ok_iff.1 h1) h3 h5
    exact forall2_get (mapM_ok_iff.1 g1) h4 h6

/-- What a panel consists of. -/
theorem panel_ok {m : Mdl n P} {A : Mdl.Arrays} {d : Valid.Data} {ch : Channel} {smp : Sample} {b : Int} {par : String}
    {Pn : Panel} (h : panel m A d ch smp b par = .ok Pn) :
    ∃ xs nexp0 pos neg, contX d.points = .ok xs ∧ yieldAt m A ((fun _ => d.poi), 0) ch.name smp.name b = .ok nexp0 ∧
      curve (relative (withForm m true) A (fun _ => d.poi) ch.name smp.name b par nexp0) xs = .ok Pn.lin ∧
      curve (relative (withForm m false) A (fun _ => d.poi) ch.name smp.name b par nexp0) xs = .ok Pn.nli ∧
      blackPoints d ch.name par ((ch.samples.map (·.name)).idxOf smp.name) b = .ok Pn.black ∧
      redPoints smp par b (smp.posVars par m.variations) = .ok pos ∧
      redPoints smp par b (smp.negVars par m.variations) = .ok neg ∧ Pn.red = pos ++ neg := by
  unfold panel at h
  obtain ⟨xs, h1, h⟩ := bind_eq_ok.1 h
  obtain ⟨n0, h2, h⟩ := bind_eq_ok.1 h
  obtain ⟨lin, h3, h⟩ := bind_eq_ok.1 h
  obtain ⟨nli, h4, h⟩ := bind_eq_ok.1 h
  obtain ⟨black, h5, h⟩ := bind_eq_ok.1 h
  obtain ⟨pos, h6, h⟩ := bind_eq_ok.1 h
  obtain ⟨neg, h7, h⟩ := bind_eq_ok.1 h
  cases Except.ok.inj (ε := PyErr) h
  exact ⟨xs, n0, pos, neg, h1, h2, h3, h4, h5, h6, h7, rfl⟩

/-- The two curves of a panel are the graphs of these functions on an even grid of 100 values between the first and
the last of the points. -/
def CurvesAre (f : File) (Pn : Panel) (lin nli : ℝ → ℝ) : Prop :=
  ∃ pts a b xs, f.points = some pts ∧ pts.head? = some a ∧ pts.getLast? = some b ∧
    xs = (List.range 100).map (fun i : ℕ => a + i * ((b - a) / 99)) ∧
    Pn.lin = xs.map (fun x => (x, lin x)) ∧ Pn.nli = xs.map (fun x => (x, nli x))

theorem load_points {f : File} {pois chans nps : List String} {d : Valid.Data} (h : load f pois chans nps = .ok d) :
    f.points = some d.points := by
  unfold load at h
  cases pois with
  | nil => cases h
  | cons p t =>
    dsimp only at h
    obtain ⟨v, _, h⟩ := bind_eq_ok.1 h
    split at h
    · cases h
    · rename_i pts hp
      obtain ⟨vs, _, h⟩ := bind_eq_ok.1 h
      cases Except.ok.inj (ε := PyErr) h
      exact hp

theorem contX_ok {pts xs : List ℝ} (h : contX pts = .ok xs) : ∃ a b, pts.head? = some a ∧ pts.getLast? = some b ∧
    xs = (List.range 100).map (fun i : ℕ => a + i * ((b - a) / 99)) := by
  unfold contX at h
  split at h
  · rename_i a b h1 h2
    refine ⟨a, b, h1, h2, ?_⟩
    unfold Cmd.linspace at h
    rw [if_neg (by norm_num)] at h
    rw [← Except.ok.inj (ε := PyErr) h]
    refine List.map_congr_left fun i _ => ?_
    norm_num
  · cases h

theorem loadNps_get {f : File} {chan : String} : ∀ (nps : List String) (acc d : Dict Cube),
    loadNps f chan nps acc = .ok d → ∀ par c, d.get? par = some c →
      acc.get? par = some c ∨ ∃ byNp, f.chans.get? chan = some byNp ∧ byNp.get? par = some c := by
  intro nps
  induction nps with
  | nil =>
    intro acc d h par c hc
    cases Except.ok.inj (ε := PyErr) h
    exact Or.inl hc
  | cons a t ih =>
    intro acc d h par c hc
    unfold loadNps at h
    obtain ⟨e, he, h⟩ := bind_eq_ok.1 h
    split at h
    · rename_i cc hcc
      rcases ih _ _ h par c hc with h' | h'
      · rw [Dict.get?_set] at h'
        split at h'
        · rename_i hp
          subst hp
          rw [← h']
          exact Or.inr ⟨e, Dict.getItem_ok.1 he, hcc⟩
        · exact Or.inl h'
      · exact Or.inr h'
    · exact ih _ _ h par c hc

theorem loadChans_get {f : File} {nps : List String} : ∀ (chans : List String) (acc d : Dict (Dict Cube)),
    chans.foldlM (fun (acc : Dict (Dict Cube)) chan => do return acc.set chan (← loadNps f chan nps [])) acc =
      Except.ok (ε := PyErr) d → ∀ ch byc, d.get? ch = some byc →
      acc.get? ch = some byc ∨ loadNps f ch nps [] = .ok byc := by
  intro chans
  induction chans with
  | nil =>
    intro acc d h ch byc hc
    cases Except.ok.inj (ε := PyErr) h
    exact Or.inl hc
  | cons a t ih =>
    intro acc d h ch byc hc
    rw [List.foldlM_cons] at h
    obtain ⟨e, he, h⟩ := bind_eq_ok.1 h
    obtain ⟨l, hl, he⟩ := bind_eq_ok.1 he
    cases Except.ok.inj (ε := PyErr) he
    rcases ih _ _ h ch byc hc with h' | h'
    · rw [Dict.get?_set] at h'
      split at h'
      · rename_i hp
        subst hp
        rw [← Option.some.inj h']
        exact Or.inr hl
      · exact Or.inl h'
    · exact Or.inr h'

theorem load_vars {f : File} {pois chans nps : List String} {d : Valid.Data} (h : load f pois chans nps = .ok d)
    {ch par : String} {byc : Dict Cube} {cube : Cube} (h1 : d.variations.getItem ch = .ok byc)
    (h2 : byc.getItem par = .ok cube) : ∃ byNp, f.chans.get? ch = some byNp ∧ byNp.get? par = some cube := by
  unfold load at h
  cases pois with
  | nil => cases h
  | cons p t =>
    dsimp only at h
    obtain ⟨v, _, h⟩ := bind_eq_ok.1 h
    split at h
    · cases h
    · obtain ⟨vs, hvs, h⟩ := bind_eq_ok.1 h
      cases Except.ok.inj (ε := PyErr) h
      rcases loadChans_get _ _ _ hvs ch byc (Dict.getItem_ok.1 h1) with h' | h'
      · cases h'
      · rcases loadNps_get _ _ _ h' par cube (Dict.getItem_ok.1 h2) with h'' | h''
        · cases h''
        · exact h''

/-- The panel `Pn` is drawn for bin `b` of the sample number `s` of the channel `ch` and for the NP number `p`; names are
not used twice. -/
structure Drawn (L : Cmd.Lib) (o : Valid.Opts) (m : Mdl n P) (f : File) (pre post : List Channel) (ch : Channel) (s : Nat)
    (smp : Sample) (b : Nat) (p : Fin P) (Pn : Panel) : Prop where
  names : (m.channels.map (·.name)).Nodup
  shaped : m.YieldsShaped
  chan : m.channels = pre ++ ch :: post
  chanOpt : Picked (·.name) o.channel m.channels ch
  samples : (ch.samples.map (·.name)).Nodup
  smp_at : ch.samples[s]? = some smp
  smpOpt : Picked (·.name) o.sample ch.samples smp
  bin : b < ch.nbins
  poi : ∀ i, m.pois i ≠ (m.nps p).name
  np : ∀ q, (m.nps q).name = (m.nps p).name → q = p
  drawn : Shows L o m f b (m.nps p).name Pn

/-- Everything that is known of a panel. -/
theorem drawn_panel {L : Cmd.Lib} {o : Valid.Opts} {m : Mdl n P} {f : File} {pre post : List Channel} {ch : Channel}
    {s : Nat} {smp : Sample} {b : Nat} {p : Fin P} {Pn : Panel} (D : Drawn L o m f pre post ch s smp b p Pn) :
    ∃ A d, m.setInternal = .ok A ∧ load f ((List.finRange n).map m.pois) (m.channels.map (·.name))
        ((List.finRange P).map fun p => (m.nps p).name) = .ok d ∧
      CurvesAre f Pn
      (fun x => (withForm (adjust m o.cutoff o.symmetric) true).cutKExp A (Function.update 0 p x) s
        ((pre.map (·.nbins)).sum + b) - 1)
      (fun x => (withForm (adjust m o.cutoff o.symmetric) false).cutKExp A (Function.update 0 p x) s
        ((pre.map (·.nbins)).sum + b) - 1) ∧
      blackPoints d ch.name (m.nps p).name s b = .ok Pn.black ∧
      ∃ pos neg, redPoints smp (m.nps p).name b (smp.posVars (m.nps p).name m.variations) = .ok pos ∧
        redPoints smp (m.nps p).name b (smp.negVars (m.nps p).name m.variations) = .ok neg ∧ Pn.red = pos ++ neg := by
  obtain ⟨A, d, hA, hload, hpan⟩ := shows_panel D.drawn D.names D.chanOpt D.samples D.smpOpt
  refine ⟨A, d, hA, hload, ?_⟩
  set m' := adjust m o.cutoff o.symmetric with hm'
  obtain ⟨xs, nexp0, pos, neg, h1, h2, h3, h4, h5, h6, h7, h8⟩ := panel_ok hpan
  obtain ⟨base, hbase⟩ := yieldAt_form m' D.names D.shaped A pre post ch D.chan D.samples s smp D.smp_at b D.bin _ 0 nexp0 h2
  have hself : withForm m' m'.use_linear_nps = m' := rfl
  have h0 := hbase m'.use_linear_nps 0
  rw [hself, h2, (c09_factor m' A s _).2, mul_one] at h0
  have hb0 : nexp0 = base := Except.ok.inj (ε := PyErr) h0
  have hrel : ∀ (lin : Bool) (x y : ℝ),
      relative (withForm m' lin) A (fun _ => d.poi) ch.name smp.name b (m.nps p).name nexp0 x = .ok y →
      y = (withForm m' lin).cutKExp A (Function.update 0 p x) s ((pre.map (·.nbins)).sum + b) - 1 := by
    intro lin x y hy
    unfold relative at hy
    obtain ⟨q, hq, hy⟩ := bind_eq_ok.1 hy
    rw [show setPar (withForm m' lin) (fun _ => d.poi) (m.nps p).name x = .ok ((fun _ => d.poi), Function.update 0 p x)
      from setPar_np (withForm m' lin) _ p x D.poi D.np] at hq
    cases Except.ok.inj (ε := PyErr) hq
    rw [hbase lin, bind_ok] at hy
    split at hy
    · cases hy
    · rename_i hne
      rw [← Except.ok.inj (ε := PyErr) hy, ← hb0]
      field_simp
  obtain ⟨a, bb, e1, e2, e3⟩ := contX_ok h1
  refine ⟨⟨d.points, a, bb, xs, load_points hload, e1, e2, e3, curve_ok _ h3 (hrel true), curve_ok _ h4 (hrel false)⟩,
    ?_, pos, neg, h6, h7, h8⟩
  have hidx : (ch.samples.map (·.name)).idxOf smp.name = s := by
    have e : (ch.samples.map (·.name))[s]? = some smp.name := by rw [List.getElem?_map, D.smp_at]; rfl
    obtain ⟨hlt, he⟩ := List.getElem?_eq_some_iff.1 e
    rw [← he]
    exact D.samples.idxOf_getElem s hlt
  rwa [hidx] at h5

/-- C91: the red points are the impacts that are stored in the model for this NP, one for each variation. -/
theorem c91_red (L : Cmd.Lib) (o : Valid.Opts) (m : Mdl n P) (f : File) (pre post : List Channel) (ch : Channel) (s : Nat)
    (smp : Sample) (b : Nat) (p : Fin P) (Pn : Panel) (D : Drawn L o m f pre post ch s smp b p Pn)
    (hv : m.variations = none) :
    (∀ v y, (v, y) ∈ Pn.red → ∃ r, smp.impact (m.nps p).name v = .ok r ∧
      ∃ k : ℕ, r[k]? = some y ∧ ((b : Int) = k ∨ (b : Int) = (k : Int) - r.length)) ∧
    (Pn.red.map Prod.fst).Perm ((smp.availableVariations (m.nps p).name).filter fun v => v ≠ 0) := by
  obtain ⟨A, d, _, _, _, _, pos, neg, h1, h2, h3⟩ := drawn_panel D
  have key : ∀ vs l, redPoints smp (m.nps p).name b vs = .ok l → l.map Prod.fst = vs ∧ ∀ v y, (v, y) ∈ l →
      ∃ r, smp.impact (m.nps p).name v = .ok r ∧
      ∃ k : ℕ, r[k]? = some y ∧ ((b : Int) = k ∨ (b : Int) = (k : Int) - r.length) := by
    intro vs l h0
    have h := mapM_ok_iff.1 h0
    clear h0
    induction h with
    | nil => exact ⟨rfl, by simp⟩
    | cons hr _ ih =>
      obtain ⟨r, hr1, hr⟩ := bind_eq_ok.1 hr
      obtain ⟨y, hr2, hr⟩ := bind_eq_ok.1 hr
      cases Except.ok.inj (ε := PyErr) hr
      refine ⟨by rw [List.map_cons, ih.1], fun v' y' hm => ?_⟩
      rcases List.mem_cons.1 hm with e | hm
      · cases e
        exact ⟨r, hr1, (pyIndex_ok _ _ _).1 hr2⟩
      · exact ih.2 v' y' hm
  obtain ⟨a1, a2⟩ := key _ _ h1
  obtain ⟨b1, b2⟩ := key _ _ h2
  refine ⟨fun v y hm => ?_, ?_⟩
  · rw [h3] at hm
    rcases List.mem_append.1 hm with hm | hm
    · exact a2 v y hm
    · exact b2 v y hm
  · rw [h3, List.map_append, a1, b1, hv]
    refine ((List.perm_insertionSort _ _).append (List.perm_insertionSort _ _)).trans ?_
    generalize smp.availableVariations (m.nps p).name = l
    induction l with
    | nil => simp
    | cons x t ih =>
      rcases lt_trichotomy x 0 with hx | hx | hx
      · rw [List.filter_cons_of_neg (by simpa using hx.le), List.filter_cons_of_pos (by simpa using hx),
          List.filter_cons_of_pos (by simpa using hx.ne)]
        exact List.perm_middle.trans (ih.cons x)
      · subst hx
        simpa using ih
      · rw [List.filter_cons_of_pos (by simpa using hx), List.filter_cons_of_neg (by simpa using hx.le),
          List.filter_cons_of_pos (by simpa using hx.ne')]
        exact ih.cons x

/-- The curve through the stored points: the non-linear one, or the linear one if the model was loaded as linear. -/
def ownCurve (m : Mdl n P) (lin nli : ℝ → ℝ) : ℝ → ℝ := if m.use_linear_nps then lin else nli

/-- C91: without a cutoff and without `--symmetric`, both curves pass through the origin, and the curve of the form in
which the model was loaded passes through all the red points (through those with `1/100 ≤ 1 + y ≤ 100` for the
exponential form).  The other curve is *not* the interpolation in the other form: the script switches the form without
computing the coefficients again, so that `1 + nonlinear = exp linear` everywhere: the two curves are tangent at the
origin, and the "linear" one lies below the other wherever they differ from 0. -/
theorem c91_curves (L : Cmd.Lib) (o : Valid.Opts) (m : Mdl n P) (f : File) (pre post : List Channel) (ch : Channel)
    (s : Nat) (smp : Sample) (b : Nat) (p : Fin P) (Pn : Panel) (D : Drawn L o m f pre post ch s smp b p Pn) (w : ℕ)
    (hu : m.Uniform w) (ha : m.use_asym_impacts = true) (hv : m.variations = none) (hc : o.cutoff.getD m.cutoff = 0)
    (hs : o.symmetric = false) :
    ∃ lin nli, CurvesAre f Pn lin nli ∧ lin 0 = 0 ∧ nli 0 = 0 ∧
      (∀ v y, (v, y) ∈ Pn.red → (m.use_linear_nps = false → 1 / 100 ≤ 1 + y ∧ 1 + y ≤ 100) → ownCurve m lin nli v = y) ∧
      (∀ x, 1 + nli x = Real.exp (lin x)) ∧ (∀ x, lin x ≤ nli x ∧ (lin x = nli x ↔ nli x = 0)) := by
  obtain ⟨A, d, hA, hload, hcur, _⟩ := drawn_panel D
  have had : adjust m o.cutoff o.symmetric = { m with cutoff := 0 } := by
    unfold adjust; rw [hc, hs]; rfl
  rw [had] at hcur
  have hk1 : ∀ θ i, (withForm { m with cutoff := 0 } true).cutKExp A θ s i = 1 + m.delta A θ s i := by
    intro θ i
    simp only [Mdl.cutKExp, withForm, if_true, Mdl.kExp, ha]
    rfl
  have hk2 : ∀ θ i, (withForm { m with cutoff := 0 } false).cutKExp A θ s i = Real.exp (m.delta A θ s i) := by
    intro θ i
    simp only [Mdl.cutKExp, withForm, if_true, Mdl.kExp, ha]
    rfl
  simp only [hk1, hk2] at hcur
  have hz : m.delta A (Function.update 0 p 0) s ((pre.map (·.nbins)).sum + b) = 0 := by
    have e : (Function.update 0 p 0 : Fin P → ℝ) = 0 := by simp
    rw [e]
    simp [Mdl.delta]
  have hexp : ∀ t : ℝ, 1 + t - 1 ≤ Real.exp t - 1 ∧ (1 + t - 1 = Real.exp t - 1 ↔ Real.exp t - 1 = 0) := by
    intro t
    refine ⟨by linarith [Real.add_one_le_exp t], fun h => ?_, fun h => ?_⟩
    · rcases eq_or_ne t 0 with rfl | ht
      · simp
      · linarith [Real.add_one_lt_exp ht]
    · have : t = 0 := by
        have h' : Real.exp t = 1 := by linarith
        simpa using h'
      subst this; simp
  refine ⟨_, _, hcur, ?_, ?_, ?_, ?_, ?_⟩
  · show 1 + m.delta A (Function.update 0 p 0) s _ - 1 = 0
    rw [hz]; norm_num
  · show Real.exp (m.delta A (Function.update 0 p 0) s _) - 1 = 0
    rw [hz]; norm_num
  · intro v y hm hy
    obtain ⟨r1, r2⟩ := c91_red L o m f pre post ch s smp b p Pn D hv
    obtain ⟨r, hr, k, hk, hkb⟩ := r1 v y hm
    have hmem : v ∈ (smp.availableVariations (m.nps p).name).filter fun v => v ≠ 0 :=
      r2.subset (List.mem_map.2 ⟨(v, y), hm, rfl⟩)
    obtain ⟨hm1, hm2⟩ := List.mem_filter.1 hmem
    have hkb' : k = b := by
      rcases hkb with e | e
      · exact_mod_cast e.symm
      · have := (List.getElem?_eq_some_iff.1 hk).1
        omega
    subst hkb'
    have := c08_kexp_reproduces m w hu ha hv A hA pre post ch D.chan s smp D.smp_at k D.bin (Function.update 0 p v)
      (Function.update 0 p y) (by
        intro q
        rcases eq_or_ne q p with rfl | hq
        · right
          simp only [Function.update_self]
          refine ⟨by simpa using hm2, hm1, r, hr, ?_⟩
          rw [List.getD_eq_getElem?_getD, hk]; rfl
        · left; simp [hq])
    unfold ownCurve
    have hprod : ∏ q, max (min (1 + (Function.update 0 p y : Fin P → ℝ) q) 100) (1 / 100) =
        max (min (1 + y) 100) (1 / 100) := by
      rw [Finset.prod_eq_single p]
      · simp
      · intro q _ hq; simp [hq]; norm_num
      · simp
    have hsum : ∑ q, (Function.update 0 p y : Fin P → ℝ) q = y := by
      rw [Finset.sum_eq_single p]
      · simp
      · intro q _ hq; simp [hq]
      · simp
    rw [hprod, hsum] at this
    unfold Mdl.kExp at this
    rw [if_pos ha] at this
    by_cases hl : m.use_linear_nps = true
    · rw [if_pos hl] at this ⊢
      rw [if_pos hl] at this
      linarith
    · rw [if_neg hl] at this ⊢
      rw [if_neg hl] at this
      obtain ⟨y1, y2⟩ := hy (by simpa using hl)
      rw [this, min_eq_left y2, max_eq_left y1]
      ring
  · intro x; simp
  · intro x; exact hexp _

/-- C91: with `--symmetric` and without a cutoff the first curve is the straight line with the symmetrised impact `a` of
the bin, the other one the power `(1 + a)^x - 1`: here the curves are the two forms of the same impact. -/
theorem c91_symmetric (L : Cmd.Lib) (o : Valid.Opts) (m : Mdl n P) (f : File) (pre post : List Channel) (ch : Channel)
    (s : Nat) (smp : Sample) (b : Nat) (p : Fin P) (Pn : Panel) (D : Drawn L o m f pre post ch s smp b p Pn)
    (hc : o.cutoff.getD m.cutoff = 0) (hs : o.symmetric = true) :
    ∃ A, m.setInternal = .ok A ∧ (-1 < A.sym s ((pre.map (·.nbins)).sum + b) p →
      CurvesAre f Pn (fun x => A.sym s ((pre.map (·.nbins)).sum + b) p * x)
        (fun x => (1 + A.sym s ((pre.map (·.nbins)).sum + b) p) ^ x - 1)) := by
  obtain ⟨A, d, hA, hload, hcur, _⟩ := drawn_panel D
  refine ⟨A, hA, fun hgt => ?_⟩
  have had : adjust m o.cutoff o.symmetric = { m with cutoff := 0, use_asym_impacts := false } := by
    unfold adjust; rw [hc, hs]; rfl
  rw [had] at hcur
  have e : ∀ (g : Fin P → ℝ) (x : ℝ), ∑ q, g q * (Function.update 0 p x : Fin P → ℝ) q = g p * x := by
    intro g x
    rw [Finset.sum_eq_single p]
    · simp
    · intro q _ hq; simp [hq]
    · simp
  convert hcur using 2
  · rename_i x
    simp only [Mdl.cutKExp, withForm, if_true, Mdl.kExp, Bool.false_eq_true, if_false, e]
    ring
  · rename_i x
    simp only [Mdl.cutKExp, withForm, if_true, Mdl.kExp, Bool.false_eq_true, if_false, e]
    rw [Real.rpow_def_of_pos (by linarith)]

/-- C91: the black points are the validation points with the variation minus 1 that the file has for this channel, NP,
sample and bin. -/
theorem c91_black (L : Cmd.Lib) (o : Valid.Opts) (m : Mdl n P) (f : File) (pre post : List Channel) (ch : Channel)
    (s : Nat) (smp : Sample) (b : Nat) (p : Fin P) (Pn : Panel) (D : Drawn L o m f pre post ch s smp b p Pn) :
    ∃ pts byNp cube rows vals, f.points = some pts ∧ f.chans.get? ch.name = some byNp ∧
      byNp.get? (m.nps p).name = some cube ∧ cube[s]? = some rows ∧
      (∃ k : ℕ, rows[k]? = some vals ∧ ((b : Int) = k ∨ (b : Int) = (k : Int) - rows.length)) ∧
      vals.length = pts.length ∧ Pn.black = pts.zip (vals.map fun y => y - 1) := by
  obtain ⟨A, d, hA, hload, _, hb, _⟩ := drawn_panel D
  unfold blackPoints at hb
  obtain ⟨byc, h1, hb⟩ := bind_eq_ok.1 hb
  obtain ⟨cube, h2, hb⟩ := bind_eq_ok.1 hb
  obtain ⟨byNp, g1, g2⟩ := load_vars hload h1 h2
  split at hb
  · cases hb
  · rename_i rows hrows
    obtain ⟨vals, hvals, hb⟩ := bind_eq_ok.1 hb
    split at hb
    · rename_i hlen
      exact ⟨d.points, byNp, cube, rows, vals, load_points hload, g1, g2, hrows, (pyIndex_ok _ _ _).1 hvals, hlen,
        (Except.ok.inj (ε := PyErr) hb).symm⟩
    · cases hb

/-- C91: a list of bins that are not all integers is rejected, and so are a channel and a sample that are not there. -/
theorem c91_rejects (L : Cmd.Lib) (o : Valid.Opts) (m : Mdl n P) (f : File) :
    (∀ t, o.bins = some t → (∃ x ∈ t.splitOn ',', ∀ i, Dump.toInt L x ≠ .ok i) → Valid.run L o m f = .error .valueError) ∧
    (∀ bs A c, Valid.bins L o = .ok bs → m.setInternal = .ok A → o.channel = some c → (∀ ch ∈ m.channels, ch.name ≠ c) →
      Valid.run L o m f = .error .keyError) ∧
    (∀ bs A ch t, Valid.bins L o = .ok bs → m.setInternal = .ok A → (m.channels.map (·.name)).Nodup →
      Picked (·.name) o.channel m.channels ch → o.sample = some t → (∀ smp ∈ ch.samples, smp.name ≠ t) →
      Valid.run L o m f = .error .keyError) := by
  refine ⟨fun t ht hx => ?_, fun bs A c hb hA hc hno => ?_, fun bs A ch t hb hA hn hp ht hno => ?_⟩
  · have hbad : Valid.bins L o = .error .valueError := by
      unfold Valid.bins
      rw [ht]
      dsimp only
      rcases hm : (t.splitOn ',').mapM (Dump.toInt L) with e | l
      · rfl
      · obtain ⟨x, hx1, hx2⟩ := hx
        obtain ⟨i, hi⟩ := mapM_ok_mem hm x hx1
        exact absurd hi (hx2 i)
    unfold Valid.run
    rw [hbad]; rfl
  · unfold Valid.run
    rw [hb, bind_ok, hA, bind_ok]
    dsimp only
    have : select (·.name) o.channel (adjust m o.cutoff o.symmetric).channels = .error .keyError := by
      unfold select
      rw [hc]
      dsimp only
      rw [List.find?_eq_none.2 (by intro a ha; simpa using hno a ha)]
    rw [this]; rfl
  · unfold Valid.run
    rw [hb, bind_ok, hA, bind_ok]
    dsimp only
    rcases hsel : select (·.name) o.channel (adjust m o.cutoff o.symmetric).channels with e | ch'
    · exfalso
      unfold select at hsel
      unfold Picked at hp
      rcases ho : o.channel with _ | c
      · rw [ho] at hsel hp
        dsimp only at hsel hp
        rw [show (adjust m o.cutoff o.symmetric).channels = m.channels from rfl] at hsel
        rcases hm : m.channels with _ | ⟨x, l⟩
        · rw [hm] at hp; cases hp
        · rw [hm] at hsel; cases hsel
      · rw [ho] at hsel hp
        dsimp only at hsel hp
        rcases hf : (adjust m o.cutoff o.symmetric).channels.find? (fun a => a.name == c) with _ | x
        · have := List.find?_eq_none.1 hf ch hp.1
          simp [hp.2] at this
        · rw [hf] at hsel; cases hsel
    · have e : ch' = ch := select_picked (l := m.channels) hn hsel hp
      subst e
      rw [hsel, bind_ok]
      have : select (·.name) o.sample ch'.samples = .error .keyError := by
        unfold select
        rw [ht]
        dsimp only
        rw [List.find?_eq_none.2 (by intro a ha; simpa using hno a ha)]
      rw [this]; rfl

namespace ValidDemo

/-- The validation file of the demo model. -/
noncomputable def file : File :=
  ⟨[("mu", 1)], some [-1, 1], [("c", [("np", [[[7/10, 3/2], [8/10, 3/2]], [[9/10, 11/10], [9/10, 6/5]]])])]⟩

noncomputable def opts (sym : Bool) : Valid.Opts := ⟨none, none, none, none, none, sym⟩

noncomputable def chan : Channel := ⟨"c", false, 2, fun _ _ => 0, [Demo.sig, Demo.bkg]⟩

theorem shaped : (Demo.mdl true false).YieldsShaped := by
  intro ch hc smp hm
  simp only [Demo.mdl, List.mem_singleton] at hc
  subst hc
  simp only [List.mem_cons, List.not_mem_nil, or_false] at hm
  rcases hm with rfl | rfl <;> simp [Demo.sig, Demo.bkg]

theorem curve_total {f : ℝ → Except PyErr ℝ} (hf : ∀ x, ∃ y, f x = .ok y) (xs : List ℝ) : ∃ l, curve f xs = .ok l := by
  choose g hg using hf
  refine ⟨xs.map fun x => (x, g x), ?_⟩
  unfold curve
  induction xs with
  | nil => rfl
  | cons x t ih => rw [List.mapM_cons, hg x, bind_ok, ih]; rfl

/-- A panel of the demo model. -/
theorem drawn (L : Cmd.Lib) (sym : Bool) : ∃ Pn, Drawn L (opts sym) (Demo.mdl true false) file [] [] chan 0 Demo.sig 0 0 Pn ∧
    (1, 1/2) ∈ Pn.red := by
  obtain ⟨A, hA⟩ := Demo.internalAsym false
  set m' := adjust (Demo.mdl true false) none sym with hm'
  have hn : (m'.channels.map (·.name)).Nodup := by simp [hm', adjust, Demo.mdl]
  have hd : (chan.samples.map (·.name)).Nodup := by simp [chan, Demo.sig, Demo.bkg]
  have hsh : m'.YieldsShaped := shaped
  have hy0 : ∃ y, yieldAt m' A ((fun _ => 1), 0) chan.name Demo.sig.name (0 : ℕ) = .ok y ∧ y ≠ 0 := by
    have hv : m'.ctx.realVals (fun _ => 1) = .ok [("mu", 1), ("np", 0)] := Demo.vals true false (fun _ => 1)
    have hcomp : m'.Computable [("mu", 1), ("np", 0)] := by
      have h0 := Demo.computable true false (fun _ => 1)
      exact ⟨h0.shape, h0.norm0, h0.value⟩
    obtain ⟨ne, hne, _⟩ := Mdl.nExp_ok A 0 hv hcomp
    obtain ⟨rows, h1, h2, h3, h4, _⟩ := c77_channel_rows m' hn hsh A _ 0 _ hne [] [] chan rfl
    obtain ⟨rows', r, g1, g2, g3⟩ := (c77_sample_row m' hn A _ 0 _ hne chan (by simp [hm', adjust, Demo.mdl, chan]) hd).1
      0 Demo.sig rfl
    rw [h1] at g2
    cases Mdl.Arr.mat.inj (Except.ok.inj (ε := PyErr) g2)
    obtain ⟨vals', v, k1, k2, k3⟩ := h4 0 Demo.sig rfl 0 (by simp [chan])
    rw [hv] at k1
    cases Except.ok.inj (ε := PyErr) k1
    have hv1 : v = 1 := by
      simp [Demo.sig, Norm.value, Dict.getItem, Dict.get?] at k2
      exact k2.symm
    have hlen : r.length = 2 := h3 r (List.mem_of_getElem? g1)
    rw [(c09_factor m' A 0 _).2, List.getD_eq_getElem?_getD (l := rows), g1] at k3
    simp only [Option.getD_some] at k3
    refine ⟨1, ?_, one_ne_zero⟩
    unfold yieldAt
    rw [g3, bind_ok]
    dsimp only
    rw [pyIndex_ok]
    refine ⟨0, ?_, Or.inl rfl⟩
    rw [List.getD_eq_getElem?_getD, List.getElem?_eq_getElem (by omega)] at k3
    rw [List.getElem?_eq_getElem (by omega)]
    simp only [Option.getD_some] at k3
    rw [k3, hv1]
    simp [Demo.sig]
  obtain ⟨y, hy, hyne⟩ := hy0
  obtain ⟨base, hbase⟩ := yieldAt_form m' hn hsh A [] [] chan rfl hd 0 Demo.sig rfl 0 (by simp [chan]) _ 0 y hy
  have hcur : ∀ (lin : Bool) (xs : List ℝ), ∃ l,
      curve (relative (withForm m' lin) A (fun _ => 1) chan.name Demo.sig.name (0 : ℕ) "np" y) xs = .ok l := by
    intro lin xs
    refine curve_total (fun x => ?_) xs
    unfold relative
    rw [show setPar (withForm m' lin) (fun _ => 1) "np" x = .ok ((fun _ => 1), Function.update 0 0 x)
      from setPar_np (withForm m' lin) _ 0 x (by intro i; simp [withForm, hm', adjust, Demo.mdl])
        (fun q _ => Subsingleton.elim _ _), bind_ok, hbase lin, bind_ok, if_neg hyne]
    exact ⟨_, rfl⟩
  obtain ⟨xs, hxs⟩ : ∃ xs, contX [-1, 1] = .ok xs := by
    refine ⟨_, show Cmd.linspace (-1) 1 100 true = .ok ?_ from ?_⟩
    · exact (List.range 100).map (fun i : ℕ => (-1 : ℝ) + i * ((1 - -1) / 99))
    · unfold Cmd.linspace
      rw [if_neg (by norm_num)]
      refine congrArg _ (List.map_congr_left fun i _ => ?_)
      norm_num
  obtain ⟨lin, hlin⟩ := hcur true xs
  obtain ⟨nli, hnli⟩ := hcur false xs
  set d : Valid.Data := ⟨1, [-1, 1], [("c", [("np", [[[7/10, 3/2], [8/10, 3/2]], [[9/10, 11/10], [9/10, 6/5]]])])]⟩ with hdd
  have hload : load file ["mu"] ["c"] ["np"] = .ok d := by
    simp [load, file, loadNps, Dict.getItem, Dict.get?, Dict.set, hdd]
  have hblack : blackPoints d "c" "np" 0 (0 : ℕ) = .ok [(-1, 7/10 - 1), (1, 3/2 - 1)] := by
    simp [blackPoints, hdd, Dict.getItem, Dict.get?, Dump.pyIndex]
  have hpos : redPoints Demo.sig "np" (0 : ℕ) (Demo.sig.posVars "np" none) = .ok [(1, 1/2)] := by
    norm_num [redPoints, Sample.posVars, Demo.sig, Sample.availableVariations, Dict.get?, VarKey.toReal, Sample.impact,
      lookupVar, Dump.pyIndex]
  have hneg : redPoints Demo.sig "np" (0 : ℕ) (Demo.sig.negVars "np" none) = .ok [(-1, -1/4)] := by
    norm_num [redPoints, Sample.negVars, Demo.sig, Sample.availableVariations, Dict.get?, VarKey.toReal, Sample.impact,
      lookupVar, Dump.pyIndex]
  have hpan : panel m' A d chan Demo.sig (0 : ℕ) "np" = .ok ⟨[(-1, 7/10 - 1), (1, 3/2 - 1)], [(1, 1/2)] ++ [(-1, -1/4)], lin, nli⟩ := by
    unfold panel
    rw [show contX d.points = .ok xs from hxs, bind_ok, hy, bind_ok]
    dsimp only
    rw [show curve (relative { m' with use_linear_nps := true } A (fun _ => d.poi) chan.name Demo.sig.name (0 : ℕ) "np" y) xs =
        .ok lin from hlin, bind_ok,
      show curve (relative { m' with use_linear_nps := false } A (fun _ => d.poi) chan.name Demo.sig.name (0 : ℕ) "np" y) xs =
        .ok nli from hnli, bind_ok,
      show blackPoints d chan.name "np" ((chan.samples.map (·.name)).idxOf Demo.sig.name) (0 : ℕ) = _ from hblack, bind_ok,
      show m'.variations = none from rfl, hpos, bind_ok, hneg, bind_ok]
    rfl
  refine ⟨⟨[(-1, 7/10 - 1), (1, 3/2 - 1)], [(1, 1/2)] ++ [(-1, -1/4)], lin, nli⟩, ⟨hn, hsh, rfl, rfl, hd, rfl, rfl, by simp [chan], by intro i; simp [Demo.mdl], fun q _ => Subsingleton.elim _ _,
    [[_]], [0], 0, 0, [_], ?_, rfl, rfl, rfl, rfl, rfl⟩, ?_⟩
  · unfold Valid.run
    rw [show Valid.bins L (opts sym) = .ok [0] from rfl, bind_ok, hA, bind_ok]
    dsimp only
    rw [show select (·.name) (opts sym).channel (adjust (Demo.mdl true false) (opts sym).cutoff (opts sym).symmetric).channels
      = .ok chan from rfl, bind_ok, show select (·.name) (opts sym).sample chan.samples = .ok Demo.sig from rfl, bind_ok,
      show load file ((List.finRange 1).map (adjust (Demo.mdl true false) (opts sym).cutoff (opts sym).symmetric).pois)
        ((adjust (Demo.mdl true false) (opts sym).cutoff (opts sym).symmetric).channels.map (·.name)) ((List.finRange 1).map
        fun p => ((adjust (Demo.mdl true false) (opts sym).cutoff (opts sym).symmetric).nps p).name) = .ok d from hload, bind_ok,
      show npNames (adjust (Demo.mdl true false) (opts sym).cutoff (opts sym).symmetric) (opts sym) = ["np"] from rfl,
      if_neg (by simp)]
    rw [List.mapM_cons, List.mapM_nil, List.mapM_cons, List.mapM_nil]
    rw [show panel (adjust (Demo.mdl true false) (opts sym).cutoff (opts sym).symmetric) A d chan Demo.sig 0 "np" = _ from hpan]
    rfl
  · simp

end ValidDemo

/-- In the demo model the non-linear curve reaches the stored impact `1/2` at `1`, the linear one only `log (3/2)`. -/
example (L : Cmd.Lib) : ∃ Pn lin nli, Drawn L (ValidDemo.opts false) (Demo.mdl true false) ValidDemo.file [] []
    ValidDemo.chan 0 Demo.sig 0 0 Pn ∧ CurvesAre ValidDemo.file Pn lin nli ∧ nli 1 = 1 / 2 ∧ lin 1 < 1 / 2 := by
  obtain ⟨Pn, D, hr⟩ := ValidDemo.drawn L false
  obtain ⟨lin, nli, h1, h2, h3, h4, h5, h6⟩ := c91_curves L _ _ _ _ _ _ _ _ _ _ _ D 1 (Demo.uniform false) rfl rfl rfl rfl
  have e : nli 1 = 1 / 2 := h4 1 (1/2) hr (by intro _; norm_num)
  refine ⟨Pn, lin, nli, D, h1, e, ?_⟩
  rw [← e]
  refine lt_of_le_of_ne (h6 1).1 fun h => ?_
  rw [(h6 1).2.1 h] at e
  norm_num at e

example (L : Cmd.Lib) : ∃ Pn, Drawn L (ValidDemo.opts true) (Demo.mdl true false) ValidDemo.file [] []
    ValidDemo.chan 0 Demo.sig 0 0 Pn ∧ (ValidDemo.opts true).cutoff.getD (Demo.mdl true false).cutoff = 0 :=
  ⟨_, (ValidDemo.drawn L true).choose_spec.1, rfl⟩

example (L : Cmd.Lib) (A) (hA : (Demo.mdl true false).setInternal = .ok A) :
    Valid.run L { ValidDemo.opts false with channel := some "d" } (Demo.mdl true false) ValidDemo.file = .error .keyError :=
  (c91_rejects L _ _ _).2.1 [0] A "d" rfl hA rfl (by simp [Demo.mdl])

end Verif.Props
