import Verif.Model.ConvertWs
import Verif.Model.Collect
/-!
# Model of the options and of the output of `convert_ws.py` (`/repo/src/fastprof_import/convert_ws.py`)
-/
namespace Verif
namespace Conv
open Cmd Collect

/-- `binspec_fields[2][-1] == '+'` and `binspec_fields[2][:-1]` (convert_ws.py:120-122); an empty text has no last character. -/
def takePlus (t : Str) : Except PyErr (Str × Bool) :=
  match t.getLast? with
  | none => .error .indexError
  | some c => if c = '+' then .ok (t.dropLast, true) else .ok (t, false)

/-- `np.logspace(1, e, n, add_last, base)` (convert_ws.py:125). -/
noncomputable def logspaceTo (base e : ℝ) (n : ℤ) (last : Bool) : Except PyErr (List ℝ) := do
  let l ← linspace 1 e n last
  return l.map fun x => base ^ x

/-- The edges given by an item of `--binning` (convert_ws.py:118-127). -/
noncomputable def edgesOf (L : Lib) (spec : Str) : Except PyErr (List ℝ) :=
  match spec.splitOn ':' with
  | f0 :: f1 :: f2 :: rest => do
    let (t, last) ← takePlus f2
    let n ← orValueError (L.int t)
    match rest with
    | [r] =>
      if r = "log".toList then do
        let b ← orValueError (L.float f1)
        let lb ← mathLog b
        let a ← orValueError (L.float f0)
        let la ← mathLog a
        let e ← pyDiv lb la
        logspaceTo a e n last
      else do
        linspace (← orValueError (L.float f0)) (← orValueError (L.float f1)) n last
    | _ => do
      linspace (← orValueError (L.float f0)) (← orValueError (L.float f1)) n last
  | _ => .error .indexError

/-- `--binning` (convert_ws.py:113-130): any error becomes a `ValueError`. -/
noncomputable def binning (L : Lib) (text : Str) : Except PyErr (List ℝ) :=
  match (text.splitOn '~').mapM (edgesOf L) with
  | .ok l => .ok l.flatten
  | .error _ => .error .valueError

/-- `user_channels` (convert_ws.py:212-221): the last item with a name counts. -/
def userChannels (text : Str) : Dict String :=
  (text.splitOn ',').foldl (fun d spec =>
    match spec.splitOn ':' with
    | [a, b] => d.set (String.ofList a) (String.ofList b)
    | f => d.set (String.ofList (f.headD [])) "") []

/-- The name and index given to a channel of a simultaneous PDF, unless it is not selected (convert_ws.py:229-236). -/
def channelName (user : Dict String) (i : ℕ) (name : String) : Option (String × ℕ) :=
  if user ≠ [] ∧ user.get? (toString i) = none ∧ user.get? name = none then none
  else
    match user.get? (toString i) with
    | some n => if n ≠ "" then some (n, i) else some (name, i)
    | none => some (name, i)

/-- The channels of a simultaneous PDF, from the names of its categories (convert_ws.py:223-239). -/
def channelNames (user : Dict String) (cats : List String) : List (String × ℕ) :=
  cats.zipIdx.filterMap fun e => channelName user e.2 e.1

/-! ## Output -/

open Classical in
/-- `np.count_nonzero(sample.nominal_yields) == 0` (convert_ws.py:445). -/
noncomputable def emptySample (yields : List ℝ) : Bool := yields.all fun y => decide (y = 0)

/-- The samples that are written (convert_ws.py:443-456): those that are not empty, with their positions. -/
noncomputable def written (yields : List (List ℝ)) : List (List ℝ × ℕ) := yields.zipIdx.filter fun e => !emptySample e.1

/-- The `norm` and `nominal_norm` of a sample that is written (convert_ws.py:448-452). -/
def writtenNorm (pois nps : List String) (s : WSSample) (nominal_norm : ℝ) : Norm × Option ℝ :=
  match s.normpar with
  | some p => if p ∈ pois ∨ p ∈ nps then (.expr p, some nominal_norm) else (.number 1, none)
  | none => (.number 1, none)

/-- The removal of the validation data of the empty samples (convert_ws.py:523-525): the position is the one in the list of all samples. -/
noncomputable def dropEmpty {α : Type} : List (List ℝ × ℕ) → List α → List α
  | [], data => data
  | (y, i) :: l, data => dropEmpty l (if emptySample y then data.take i ++ data.drop (i + 1) else data)

/-- The validation data that are written, from those of all the samples (convert_ws.py:520-526). -/
noncomputable def validation {α : Type} (yields : List (List ℝ)) (data : List α) : List α := dropEmpty yields.zipIdx data

end Conv
end Verif
