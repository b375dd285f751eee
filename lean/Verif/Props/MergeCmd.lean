import Verif.Model.MergeCmd
import Verif.Props.MergeModels
import Verif.Props.PruneScript
/-!
# C84: the input files of `merge_models.py`
-/
namespace Verif.Props
open Markup MergeM MergeCmd

/-! ## The order of the file names -/

theorem textLt_iff (a b : List Char) : textLt a b = true ↔ a < b := by simp [textLt]

theorem pieceLt_irrefl (a : Piece) : pieceLt a a = false := by
  cases a with
  | num n => simp [pieceLt]
  | text s => simp [pieceLt, textLt]

theorem pieceLt_trans {a b c : Piece} (h1 : pieceLt a b = true) (h2 : pieceLt b c = true) : pieceLt a c = true := by
  cases a <;> cases b <;> cases c <;> simp_all [pieceLt, textLt]
  · exact lt_trans h1 h2
  · exact List.lt_trans h1 h2

theorem pieceLt_total {a b : Piece} (h : a ≠ b) : pieceLt a b = true ∨ pieceLt b a = true := by
  cases a <;> cases b <;> simp_all [pieceLt, textLt]
  rename_i a b
  by_contra hh
  push Not at hh
  exact h (List.le_antisymm (List.not_lt.1 hh.2) (List.not_lt.1 hh.1))

theorem pieceLt_asymm {a b : Piece} (h : pieceLt a b = true) : pieceLt b a = false := by
  cases hh : pieceLt b a with
  | false => rfl
  | true => have := pieceLt_trans h hh; rw [pieceLt_irrefl] at this; cases this

theorem keyLe_refl (a : List Piece) : keyLe a a = true := by
  induction a with
  | nil => rfl
  | cons x a ih => simp [keyLe, ih]

theorem keyLe_total (a b : List Piece) : (keyLe a b || keyLe b a) = true := by
  induction a generalizing b with
  | nil => simp [keyLe]
  | cons x a ih =>
    cases b with
    | nil => simp [keyLe]
    | cons y b =>
      by_cases hxy : x = y
      · subst hxy; simpa [keyLe] using ih b
      · simp only [keyLe, if_neg hxy, if_neg (Ne.symm hxy), Bool.or_eq_true]
        exact pieceLt_total hxy

theorem keyLe_trans (a b c : List Piece) (h1 : keyLe a b = true) (h2 : keyLe b c = true) : keyLe a c = true := by
  induction a generalizing b c with
  | nil => rfl
  | cons x a ih =>
    cases b with
    | nil => simp [keyLe] at h1
    | cons y b =>
      cases c with
      | nil => simp [keyLe] at h2
      | cons z c =>
        by_cases hxy : x = y
        · subst hxy
          by_cases hyz : x = z
          · subst hyz
            simp only [keyLe, if_true] at h1 h2 ⊢
            exact ih b c h1 h2
          · simpa [keyLe, hyz] using h2
        · simp only [keyLe, if_neg hxy] at h1
          by_cases hyz : y = z
          · subst hyz
            simpa [keyLe, hxy] using h1
          · simp only [keyLe, if_neg hyz] at h2
            have h3 := pieceLt_trans h1 h2
            have : x ≠ z := by
              rintro rfl
              rw [pieceLt_irrefl] at h3; cases h3
            simpa [keyLe, this] using h3

theorem keyLe_append (p a b : List Piece) : keyLe (p ++ a) (p ++ b) = keyLe a b := by
  induction p with
  | nil => rfl
  | cons x p ih => simp [keyLe, ih]

theorem comparable_append (p a b : List Piece) : comparable (p ++ a) (p ++ b) = comparable a b := by
  induction p with
  | nil => rfl
  | cons x p ih => simp [comparable, ih]

theorem splitKeep_ne (isWord : Char → Bool) (l : List Char) : splitKeep isWord l ≠ [] := by
  cases l with
  | nil => simp [splitKeep]
  | cons c l =>
    unfold splitKeep
    split
    · split <;> simp
    · simp

theorem splitKeep_word (isWord : Char → Bool) (w : List Char) (h : ∀ c ∈ w, isWord c = true) : splitKeep isWord w = [w] := by
  induction w with
  | nil => rfl
  | cons c w ih =>
    unfold splitKeep
    rw [if_pos (h c (by simp)), ih fun x hx => h x (by simp [hx])]

theorem splitKeep_sep (isWord : Char → Bool) (a b : List Char) (c : Char) (hc : isWord c = false) :
    splitKeep isWord (a ++ c :: b) = splitKeep isWord a ++ [c] :: splitKeep isWord b := by
  induction a with
  | nil => simp [splitKeep, hc]
  | cons x a ih =>
    rw [List.cons_append]
    generalize splitKeep isWord b = sb at ih ⊢
    rw [splitKeep.eq_2, splitKeep.eq_2, ih]
    by_cases hx : isWord x = true
    · rw [if_pos hx, if_pos hx]
      cases hs : splitKeep isWord a with
      | nil => exact absurd hs (splitKeep_ne isWord a)
      | cons p ps => rfl
    · rw [if_neg hx, if_neg hx]; rfl

/-- What is asked of the classification of characters: digits are word characters. -/
def DigitsAreWords (isWord : Char → Bool) : Prop := ∀ c, c.isDigit = true → isWord c = true

/-- A name with a word between two separators. -/
def nameWith (pre post : List Char) (c c' : Char) (w : List Char) : String := String.ofList (pre ++ c :: (w ++ c' :: post))

theorem key_nameWith {isWord : Char → Bool} {pre post w : List Char} {c c' : Char} (hc : isWord c = false) (hc' : isWord c' = false)
    (hw : ∀ x ∈ w, isWord x = true) : sortKey isWord (nameWith pre post c c' w) =
      ((splitKeep isWord pre).map convert ++ [convert [c]]) ++ convert w :: ((convert [c']) :: (splitKeep isWord post).map convert) := by
  unfold sortKey nameWith
  rw [String.toList_ofList, splitKeep_sep isWord pre _ c hc, splitKeep_sep isWord w _ c' hc', splitKeep_word isWord w hw]
  simp

theorem digits_all (n : ℕ) : (Nat.toDigits 10 n).all Char.isDigit = true := by
  rw [List.all_eq_true]
  intro c hc
  exact Nat.isDigit_of_mem_toDigits (by norm_num) (by norm_num) hc

theorem convert_digits (n : ℕ) : convert (Nat.toDigits 10 n) = .num n := by
  unfold convert
  rw [if_pos ⟨Nat.toDigits_ne_nil, digits_all n⟩, Nat.ofDigitChars_toDigits (by norm_num) (by norm_num)]

theorem numericSort_map {α : Type} {isWord : Char → Bool} (f : α → String) (le : α → α → Bool) (l : List α)
    (hcomp : ∀ a ∈ l, ∀ b ∈ l, comparable (sortKey isWord (f a)) (sortKey isWord (f b)) = true)
    (hle : ∀ a ∈ l, ∀ b ∈ l, le a b = keyLe (sortKey isWord (f a)) (sortKey isWord (f b))) :
    numericSort isWord (l.map f) = .ok ((l.mergeSort le).map f) := by
  unfold numericSort
  rw [if_pos]
  · rw [List.map_mergeSort (f := f) (s := fun a b => keyLe (sortKey isWord a) (sortKey isWord b)) hle]
  · rw [List.all_eq_true]
    intro x hx
    rw [List.all_eq_true]
    intro y hy
    obtain ⟨a, ha, rfl⟩ := List.mem_map.1 hx
    obtain ⟨b, hb, rfl⟩ := List.mem_map.1 hy
    exact hcomp a ha b hb

/-- C84.  `--numeric-sort`: the same files, in increasing order of the keys; files whose names differ in a number between two
characters that are not letters, digits or underscores come in the order of the numbers. -/
theorem c84_numeric_order (isWord : Char → Bool) (hw : DigitsAreWords isWord) (pre post : List Char) (c c' : Char)
    (hc : isWord c = false) (hc' : isWord c' = false) (ns : List ℕ) :
    numericSort isWord (ns.map fun n => nameWith pre post c c' (Nat.toDigits 10 n)) =
      .ok ((ns.mergeSort fun a b => decide (a ≤ b)).map fun n => nameWith pre post c c' (Nat.toDigits 10 n)) := by
  have hk : ∀ n, sortKey isWord (nameWith pre post c c' (Nat.toDigits 10 n)) = _ := fun n =>
    key_nameWith hc hc' (pre := pre) (post := post) fun x hx => hw x (List.all_eq_true.1 (digits_all n) x hx)
  refine numericSort_map _ _ _ (fun a _ b _ => ?_) (fun a _ b _ => ?_)
  · rw [hk, hk, convert_digits, convert_digits, comparable_append]
    by_cases hab : a = b
    · subst hab
      have : ∀ l : List Piece, comparable l l = true := fun l => by
        induction l with
        | nil => rfl
        | cons x l ih => simp [comparable, ih]
      exact this _
    · simp [comparable, hab]
  · rw [hk, hk, convert_digits, convert_digits, keyLe_append]
    by_cases hab : a = b
    · subst hab; simp [keyLe_refl]
    · simp only [keyLe, Piece.num.injEq, if_neg hab, pieceLt]
      simp only [decide_eq_decide]; omega

/-- Finding F112.  Numbers that follow a letter or an underscore, as in `model_9.json` and `model_10.json`, are not seen:
such names come in the order of texts. -/
theorem c84_numeric_textual (isWord : Char → Bool) (pre post : List Char) (c c' : Char)
    (hc : isWord c = false) (hc' : isWord c' = false) (ws : List (List Char))
    (hws : ∀ w ∈ ws, (∀ x ∈ w, isWord x = true) ∧ ∃ x ∈ w, x.isDigit = false) :
    numericSort isWord (ws.map (nameWith pre post c c')) =
      .ok ((ws.mergeSort fun a b => decide (a ≤ b)).map (nameWith pre post c c')) := by
  have hk : ∀ w ∈ ws, sortKey isWord (nameWith pre post c c' w) = _ := fun w h =>
    key_nameWith hc hc' (pre := pre) (post := post) (hws w h).1
  have ht : ∀ w ∈ ws, convert w = .text w := by
    intro w h
    obtain ⟨x, hx, hd⟩ := (hws w h).2
    unfold convert
    rw [if_neg]
    rintro ⟨-, h2⟩
    rw [List.all_eq_true] at h2
    rw [h2 x hx] at hd; cases hd
  refine numericSort_map _ _ _ (fun a ha b hb => ?_) (fun a ha b hb => ?_)
  · rw [hk a ha, hk b hb, ht a ha, ht b hb, comparable_append]
    by_cases hab : a = b
    · subst hab
      have : ∀ l : List Piece, comparable l l = true := fun l => by
        induction l with
        | nil => rfl
        | cons x l ih => simp [comparable, ih]
      exact this _
    · simp [comparable, hab]
  · rw [hk a ha, hk b hb, ht a ha, ht b hb, keyLe_append]
    by_cases hab : a = b
    · subst hab; simp [keyLe_refl]
    · simp only [keyLe, Piece.text.injEq, if_neg hab, pieceLt, textLt]
      rw [decide_eq_decide]
      constructor
      · intro h
        by_contra hh
        exact hab (List.le_antisymm h (List.not_lt.1 hh))
      · exact fun h => List.le_of_lt h

/-- Two of the names agree up to a number in one and a text in the other. -/
def Clash (isWord : Char → Bool) (files : List String) : Prop :=
  ∃ a ∈ files, ∃ b ∈ files, ∃ p n s as bs, sortKey isWord a = p ++ .num n :: as ∧ sortKey isWord b = p ++ .text s :: bs

/-- C84.  Whatever the names, sorting keeps the files and gives increasing keys, or raises `TypeError`; it raises exactly when
two names agree up to a number in one and a text in the other. -/
theorem c84_numeric_sort (isWord : Char → Bool) (files : List String) :
    (¬ Clash isWord files → ∃ l, numericSort isWord files = .ok l ∧ l.Perm files ∧
      l.Pairwise (fun a b => keyLe (sortKey isWord a) (sortKey isWord b) = true)) ∧
    (Clash isWord files → numericSort isWord files = .error .typeError) := by
  have key : ∀ a b : List Piece, comparable a b = false → ∃ p n s as bs,
      (a = p ++ .num n :: as ∧ b = p ++ .text s :: bs) ∨ (b = p ++ .num n :: as ∧ a = p ++ .text s :: bs) := by
    intro a
    induction a with
    | nil => intro b h; simp [comparable] at h
    | cons x a ih =>
      intro b h
      cases b with
      | nil => simp [comparable] at h
      | cons y b =>
        by_cases hxy : x = y
        · subst hxy
          simp only [comparable, if_true] at h
          obtain ⟨p, n, s, as, bs, hh⟩ := ih b h
          refine ⟨x :: p, n, s, as, bs, ?_⟩
          rcases hh with ⟨h1, h2⟩ | ⟨h1, h2⟩
          · exact Or.inl ⟨by rw [h1]; rfl, by rw [h2]; rfl⟩
          · exact Or.inr ⟨by rw [h1]; rfl, by rw [h2]; rfl⟩
        · simp only [comparable, if_neg hxy] at h
          cases x with
          | num n =>
            cases y with
            | num m => simp at h
            | text s => exact ⟨[], n, s, a, b, Or.inl ⟨rfl, rfl⟩⟩
          | text s =>
            cases y with
            | num n => exact ⟨[], n, s, b, a, Or.inr ⟨rfl, rfl⟩⟩
            | text m => simp at h
  unfold numericSort
  by_cases h : files.all (fun a => files.all fun b => comparable (sortKey isWord a) (sortKey isWord b)) = true
  · rw [if_pos h]
    refine ⟨fun _ => ⟨_, rfl, List.mergeSort_perm _ _, List.pairwise_mergeSort (le := fun a b => keyLe (sortKey isWord a) (sortKey isWord b))
      (fun a b c h1 h2 => keyLe_trans _ _ _ h1 h2) (fun a b => keyLe_total _ _) files⟩, ?_⟩
    rintro ⟨a, ha, b, hb, p, n, s, as, bs, h1, h2⟩
    have := List.all_eq_true.1 (List.all_eq_true.1 h a ha) b hb
    rw [h1, h2, comparable_append] at this
    simp [comparable] at this
  · rw [if_neg h]
    refine ⟨fun hn => absurd ?_ hn, fun _ => rfl⟩
    rw [List.all_eq_true] at h
    push Not at h
    obtain ⟨a, ha, h⟩ := h
    rw [Ne, List.all_eq_true] at h
    push Not at h
    obtain ⟨b, hb, h⟩ := h
    obtain ⟨p, n, s, as, bs, hh⟩ := key _ _ (by simpa using h)
    rcases hh with ⟨h1, h2⟩ | ⟨h1, h2⟩
    · exact ⟨a, ha, b, hb, p, n, s, as, bs, h1, h2⟩
    · exact ⟨b, hb, a, ha, p, n, s, as, bs, h1, h2⟩

/-! ## The input files -/

section
variable {T : Texts} {isWord : Char → Bool} {fs : Files} {opts : Opts}

theorem inputFiles_append (a b : List String) : inputFiles fs (a ++ b) = inputFiles fs a ++ inputFiles fs b := by
  simp [inputFiles]

/-- What an input file gives: the model that it describes, or, with `--min-sample-signif z`, this model after the removal of its
insignificant samples. -/
def Gives (T : Texts) (fs : Files) (z : Option ℝ) (f : String) (p : Obj) : Prop :=
  ∃ D o, fs.read f = some D ∧ load T D = .ok o ∧
    match z with
    | none => p = o
    | some z => Faithful o ∧ (o.doc.nps.filterMap (·.aux_obs)).Nodup ∧ Markup.pruneSamples z o = .ok p

theorem loadOne_of_gives {z : Option ℝ} {f : String} {p : Obj} (h : Gives T fs z f p) : loadOne T fs z f = .ok p := by
  obtain ⟨D, o, hr, hl, h⟩ := h
  unfold loadOne readFile
  rw [hr]
  simp only [bind_ok, hl]
  cases z with
  | none => dsimp only at h; subst h; rfl
  | some z => exact h.2.2

theorem file_of_gives (hT : T.Lawful) {z : Option ℝ} {f : String} {p : Obj} (h : Gives T fs z f p) : ∃ D, load T D = .ok p := by
  obtain ⟨D, o, hr, hl, h⟩ := h
  cases z with
  | none => dsimp only at h; subst h; exact ⟨D, hl⟩
  | some z =>
    obtain ⟨D', -, h'⟩ := (pruneSamples_ready hT (ready_of_load hT hl h.1 h.2.1) h.2.2).1.saved hT
    exact ⟨D', h'⟩

/-- C84.  `merge_models.py`: the models of the files that the script finds, in the order that it uses, are merged into the output
file: it describes the first model with the channels of all the models, one after the other; with `--min-sample-signif` the
insignificant samples of the inputs are left out. -/
theorem c84_merge (hT : T.Lawful) {files : List String} {p : Obj} {ps : List Obj}
    (hf : order isWord opts (inputFiles fs opts.input_files) = .ok files)
    (hg : List.Forall₂ (Gives T fs opts.min_sample_signif) files (p :: ps)) (hc : Compatible p ps) :
    ∃ D, run T isWord fs opts = .ok D ∧ load T D = .ok (mergedObj p ps) := by
  obtain ⟨Ds, hDs⟩ : ∃ Ds : List (Dict V), Ds.mapM (load T) = .ok (p :: ps) := by
    generalize p :: ps = l at hg
    clear hf
    induction hg with
    | nil => exact ⟨[], rfl⟩
    | cons h _ ih =>
      obtain ⟨D, hD⟩ := file_of_gives hT h
      obtain ⟨Ds, hDs⟩ := ih
      exact ⟨D :: Ds, by rw [List.mapM_cons, hD, hDs]; rfl⟩
  obtain ⟨D, h1, h2⟩ := c70_merge_files hT hDs hc
  refine ⟨D, ?_, h2⟩
  unfold run
  rw [hf, bind_ok, mapM_ok_iff.2 (hg.imp fun _ _ => loadOne_of_gives), bind_ok, ← h1]
  unfold mergeObjs mergeFiles
  congr 1
  clear hf hg hc h1 h2
  generalize p :: ps = l at hDs
  induction Ds generalizing l with
  | nil => obtain rfl := Except.ok.inj (ε := PyErr) hDs; rfl
  | cons x Ds ih =>
    rw [List.mapM_cons] at hDs
    obtain ⟨a, ha, hDs⟩ := bind_eq_ok.1 hDs
    obtain ⟨as, has, hDs⟩ := bind_eq_ok.1 hDs
    obtain rfl := Except.ok.inj (ε := PyErr) hDs
    rw [List.mapM_cons, List.mapM_cons, ih as has, ha, bind_ok]

/-- C84.  Files given by their names, without stars, are merged in the order of the command line. -/
theorem c84_named_files (hT : T.Lawful) {p : Obj} {ps : List Obj} (hn : opts.numeric_sort = false)
    (hglob : ∀ f ∈ opts.input_files, f.toList.head? ≠ some '*' ∧ fs.glob f = [f])
    (hg : List.Forall₂ (Gives T fs opts.min_sample_signif) opts.input_files (p :: ps)) (hc : Compatible p ps) :
    ∃ D, run T isWord fs opts = .ok D ∧ load T D = .ok (mergedObj p ps) := by
  refine c84_merge hT (files := opts.input_files) ?_ hg hc
  unfold order
  rw [hn, if_neg (by simp)]
  congr 1
  unfold inputFiles
  clear hg
  generalize opts.input_files = l at hglob
  induction l with
  | nil => rfl
  | cons f l ih =>
    rw [List.flatMap_cons, if_neg (hglob f (by simp)).1, (hglob f (by simp)).2, ih fun x hx => hglob x (by simp [hx])]
    rfl

/-- Finding F110.  A name of a file that does not exist is dropped in silence: the script does as if it had not been given. -/
theorem c84_missing_ignored (s : String) (pre post : List String) (hs : s.toList.head? ≠ some '*') (hg : fs.glob s = [])
    (ns : Bool) (z : Option ℝ) :
    run T isWord fs ⟨pre ++ s :: post, ns, z⟩ = run T isWord fs ⟨pre ++ post, ns, z⟩ := by
  have : inputFiles fs (pre ++ s :: post) = inputFiles fs (pre ++ post) := by
    rw [inputFiles_append, inputFiles_append]
    congr 1
    unfold inputFiles
    rw [List.flatMap_cons, if_neg hs, hg]; rfl
  unfold run
  simp only [order, this]

/-- Finding F111.  A pattern that begins with a star is not expanded: unless there is a file of this very name, the script raises
`FileNotFoundError`, even if files match the pattern. -/
theorem c84_star_refused (s : String) (post : List String) (hs : s.toList.head? = some '*') (hr : fs.read s = none)
    (z : Option ℝ) : run T isWord fs ⟨s :: post, false, z⟩ = .error .ioError := by
  unfold run order inputFiles
  simp only [Bool.false_eq_true, if_false, List.flatMap_cons, if_pos hs, bind_ok, List.singleton_append, List.mapM_cons]
  unfold loadOne readFile
  rw [hr]
  rfl

end

/-! ## The hypotheses can be met -/

/-- Three files, found by a name and by a pattern, with a name that no file has: the script merges the three. -/
example : ∃ (fs : Files) (D : Dict V), (∀ isWord, run MarkupDemo.texts isWord fs ⟨["c.json", "none.json", "m*.json"], false, none⟩ = .ok D) ∧
    load MarkupDemo.texts D = .ok (mergedObj (MarkupDemo.obj MergeDemo.cls "c")
      [MarkupDemo.obj MergeDemo.cls "d", MarkupDemo.obj MergeDemo.cls "e"]) := by
  obtain ⟨D1, h1⟩ := MergeDemo.file "c"
  obtain ⟨D2, h2⟩ := MergeDemo.file "d"
  obtain ⟨D3, h3⟩ := MergeDemo.file "e"
  let fs : Files := ⟨fun s => if s = "c.json" then ["c.json"] else if s = "m*.json" then ["m1.json", "m2.json"] else [],
    fun s => if s = "c.json" then some D1 else if s = "m1.json" then some D2 else if s = "m2.json" then some D3 else none⟩
  have hf : ∀ isWord, order isWord ⟨["c.json", "none.json", "m*.json"], false, none⟩ (inputFiles fs ["c.json", "none.json", "m*.json"]) =
      .ok ["c.json", "m1.json", "m2.json"] := by
    intro isWord
    simp [order, inputFiles, fs]
  have := fun isWord => c84_merge (isWord := isWord) (fs := fs) (opts := ⟨["c.json", "none.json", "m*.json"], false, none⟩) MarkupDemo.lawful
    (hf isWord) (.cons ⟨D1, _, by simp [fs], h1, rfl⟩ (.cons ⟨D2, _, by simp [fs], h2, rfl⟩ (.cons ⟨D3, _, by simp [fs], h3, rfl⟩ .nil)))
    MergeDemo.compatible
  obtain ⟨D, hD, hl⟩ := this fun _ => true
  refine ⟨fs, D, fun isWord => ?_, hl⟩
  rw [← hD]
  unfold run
  simp only [hf]

/-- With the word characters of Python, `m-9.json` comes before `m-10.json`, and `d/m_10.json` before `d/m_9.json`. -/
example (isWord : Char → Bool) (h : isWord '-' = false) (h' : isWord '.' = false) (hs : isWord '/' = false) (hd : DigitsAreWords isWord)
    (hm : isWord 'm' = true) (hu : isWord '_' = true) :
    numericSort isWord ["m-10.json", "m-9.json"] = .ok ["m-9.json", "m-10.json"] ∧
    numericSort isWord ["d/m_9.json", "d/m_10.json"] = .ok ["d/m_10.json", "d/m_9.json"] := by
  constructor
  · have := c84_numeric_order isWord hd ['m'] "json".toList '-' '.' h h' [10, 9]
    have e1 : nameWith ['m'] "json".toList '-' '.' (Nat.toDigits 10 10) = "m-10.json" := by decide
    have e2 : nameWith ['m'] "json".toList '-' '.' (Nat.toDigits 10 9) = "m-9.json" := by decide
    have e3 : ([10, 9].mergeSort fun a b : ℕ => decide (a ≤ b)) = [9, 10] := by
      simp [List.mergeSort, List.MergeSort.Internal.splitInTwo, List.merge]
    rw [e3] at this
    simp only [List.map_cons, List.map_nil, e1, e2] at this
    exact this
  · have := c84_numeric_textual isWord ['d'] "json".toList '/' '.' hs h' [['m', '_', '9'], ['m', '_', '1', '0']] (by
      intro w hw
      have h1 : ∀ c ∈ ['9', '1', '0'], isWord c = true := fun c hc => hd c (by
        simp only [List.mem_cons, List.not_mem_nil, or_false] at hc
        rcases hc with rfl | rfl | rfl <;> decide)
      have h9 := h1 '9' (by simp)
      have h0 := h1 '0' (by simp)
      have h11 := h1 '1' (by simp)
      simp only [List.mem_cons, List.not_mem_nil, or_false] at hw
      rcases hw with rfl | rfl
      · exact ⟨by simp [hm, hu, h9], 'm', by simp, by decide⟩
      · exact ⟨by simp [hm, hu, h0, h11], 'm', by simp, by decide⟩)
    have e3 : ([['m', '_', '9'], ['m', '_', '1', '0']].mergeSort fun a b => decide (a ≤ b)) = [['m', '_', '1', '0'], ['m', '_', '9']] := by
      have : decide ((['m', '_', '9'] : List Char) ≤ ['m', '_', '1', '0']) = false := by decide
      simp only [List.mergeSort, List.MergeSort.Internal.splitInTwo]
      simp [List.merge, this]
    rw [e3] at this
    have e1 : nameWith ['d'] "json".toList '/' '.' ['m', '_', '9'] = "d/m_9.json" := by decide
    have e2 : nameWith ['d'] "json".toList '/' '.' ['m', '_', '1', '0'] = "d/m_10.json" := by decide
    simp only [List.map_cons, List.map_nil, e1, e2] at this
    exact this

end Verif.Props
