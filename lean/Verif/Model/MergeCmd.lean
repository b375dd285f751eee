import Verif.Model.MergeModels
import Verif.Model.PruneScript
/-!
# Model of the script `merge_models.py` (`/repo/src/fastprof_utils/merge_models.py`): its input files
-/
namespace Verif
namespace MergeCmd
open Markup MergeM

/-- The files: `glob.glob`, and the decoded content of the files that can be read. -/
structure Files where
  glob : String → List String
  read : String → Option (Dict V)

/-- Lines 36-42.  `spec.find('*')` is the position of the first star, or -1: it is false only if the specification begins
with a star. -/
def inputFiles (fs : Files) (specs : List String) : List String :=
  specs.flatMap fun spec => if spec.toList.head? = some '*' then [spec] else fs.glob spec

/-- A piece of a file name in lines 49-50. -/
inductive Piece where
  | num (n : ℕ)
  | text (s : List Char)
deriving DecidableEq

/-- `re.split('(\W)', key)` (line 50): the separators are kept. -/
def splitKeep (isWord : Char → Bool) : List Char → List (List Char)
  | [] => [[]]
  | c :: cs =>
    if isWord c then
      match splitKeep isWord cs with
      | [] => [[c]]
      | p :: ps => (c :: p) :: ps
    else [] :: [c] :: splitKeep isWord cs

/-- `convert` (line 49). -/
def convert (p : List Char) : Piece := if p ≠ [] ∧ p.all Char.isDigit then .num (Nat.ofDigitChars 10 p 0) else .text p

/-- `alphanum` (line 50). -/
def sortKey (isWord : Char → Bool) (name : String) : List Piece := (splitKeep isWord name.toList).map convert

/-- Comparison of texts in Python, by characters. -/
def textLt (a b : List Char) : Bool := decide (a < b)

/-- `<` on pieces, where it is defined. -/
def pieceLt : Piece → Piece → Bool
  | .num a, .num b => decide (a < b)
  | .text a, .text b => textLt a b
  | .num _, .text _ => true
  | .text _, .num _ => false

/-- Whether the comparison of the two keys ends without `TypeError`: at the first difference there are two numbers, or two
texts. -/
def comparable : List Piece → List Piece → Bool
  | a :: as, b :: bs =>
    if a = b then comparable as bs
    else match a, b with
      | .num _, .num _ => true
      | .text _, .text _ => true
      | _, _ => false
  | _, _ => true

/-- `≤` on keys that can be compared. -/
def keyLe : List Piece → List Piece → Bool
  | [], _ => true
  | _ :: _, [] => false
  | a :: as, b :: bs => if a = b then keyLe as bs else pieceLt a b

/-- `sorted(files, key=alphanum)` (line 51).  `sorted` compares keys until the order is known.  If two keys cannot be
compared, they agree up to a number in one and a text in the other; no third key is between them, so that they are compared and
`TypeError` is raised.  The order is stable. -/
def numericSort (isWord : Char → Bool) (files : List String) : Except PyErr (List String) :=
  if files.all (fun a => files.all fun b => comparable (sortKey isWord a) (sortKey isWord b)) then
    .ok (files.mergeSort fun a b => keyLe (sortKey isWord a) (sortKey isWord b))
  else .error .typeError

/-- The options of the script (lines 19-27) that matter. -/
structure Opts where
  input_files : List String
  numeric_sort : Bool := false
  min_sample_signif : Option ℝ := none

/-- Lines 48-54. -/
def order (isWord : Char → Bool) (opts : Opts) (files : List String) : Except PyErr (List String) :=
  if opts.numeric_sort then numericSort isWord files else .ok files

/-- Line 60. -/
noncomputable def pruneIf (z : Option ℝ) (o : Obj) : Except PyErr Obj :=
  match z with
  | none => .ok o
  | some z => Markup.pruneSamples z o

/-- `if not os.access(f, os.R_OK) : raise FileNotFoundError` (line 57), then the content. -/
def readFile (fs : Files) (f : String) : Except PyErr (Dict V) :=
  match fs.read f with
  | none => .error .ioError
  | some D => .ok D

/-- The body of the loop (lines 56-61). -/
noncomputable def loadOne (T : Texts) (fs : Files) (z : Option ℝ) (f : String) : Except PyErr Obj := do
  let D ← readFile fs f
  let o ← load T D
  pruneIf z o

/-- `ModelMerger(models).merge()` and `save` (lines 64-66). -/
noncomputable def mergeObjs (T : Texts) (os : List Obj) : Except PyErr (Dict V) := do
  let models ← os.mapM live
  let big ← merge models
  save T big.obj

/-- `merge_models.run` (merge_models.py:29-66): the decoded content of the output file.  Messages are not modelled. -/
noncomputable def run (T : Texts) (isWord : Char → Bool) (fs : Files) (opts : Opts) : Except PyErr (Dict V) := do
  let files ← order isWord opts (inputFiles fs opts.input_files)
  let os ← files.mapM (loadOne T fs opts.min_sample_signif)
  mergeObjs T os

end MergeCmd
end Verif
