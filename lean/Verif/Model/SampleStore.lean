import Verif.Model.LockProto
/-!
# Model of loading and generating sets of sampling distributions
(`/repo/src/fastprof/sampling.py`)
-/
namespace Verif
namespace Samples

/-- `Samples.__init__` (sampling.py:245-262): samplers or hypotheses, but not both.  `testHypo` is the attribute of the
sampler with this name.  Returns the samplers and the object. -/
def create {P : Type} (testHypo : P → Hypo) (samplers : List P) (hypos : List Hypo) : Except PyErr (List P × Samples) :=
  if 0 < samplers.length ∧ 0 < hypos.length then .error .valueError
  else if samplers.length = 0 ∧ hypos.length = 0 then .error .valueError
  else .ok (samplers, ⟨if 0 < samplers.length ∧ hypos.length = 0 then samplers.map testHypo else hypos, []⟩)

/-- The loop of `Samples.load` (sampling.py:322-328), over the remaining hypotheses.  An exception raised while loading goes
to the handler of lines 326-327, which uses a name that is not defined (`fname`), so that `NameError` is raised.  Returns the
distributions of the object afterwards, and the exception if there is one. -/
noncomputable def loadLoop (h : List String → ℕ) (fname : Hypo → String) (files : String → Option Lock.Content) :
    List Hypo → HDict (List ℝ) → HDict (List ℝ) × Option PyErr
  | [], d => (d, none)
  | a :: rest, d =>
    let d := d.set h a (SampDist.init 0 none)
    match SampDist.load (SampDist.init 0 none) ((files (fname a)).bind Lock.Content.read) with
    | .ok s => loadLoop h fname files rest (d.set h a s)
    | .error _ => (d, some .nameError)

/-- `Samples.load` (sampling.py:316-329). -/
noncomputable def load (h : List String → ℕ) (fname : Hypo → String) (files : String → Option Lock.Content) (s : Samples) :
    Samples × Option PyErr :=
  let r := loadLoop h fname files s.hypos s.dists
  (⟨s.hypos, r.1⟩, r.2)

/-- `Samples.generate` (sampling.py:331-351): the body of the loop reads the attribute `sampler`, which `Samples` objects do
not have (the attribute is `samplers`). -/
def generate {P : Type} (samplers : List P) (s : Samples) : Samples × Option PyErr :=
  if samplers = [] then (s, some .valueError)
  else match s.hypos.zip samplers with
    | [] => (s, none)
    | _ :: _ => (s, some .attributeError)

end Samples

namespace CLsSamples

/-- `CLsSamples.load` (sampling.py:479-490): `clsb` first. -/
noncomputable def load (h : List String → ℕ) (fnameSb fnameB : Hypo → String) (filesSb filesB : String → Option Lock.Content)
    (s : CLsSamples) : CLsSamples × Option PyErr :=
  let r := s.clsb.load h fnameSb filesSb
  match r.2 with
  | some e => (⟨r.1, s.cl_b⟩, some e)
  | none =>
    let q := s.cl_b.load h fnameB filesB
    (⟨r.1, q.1⟩, q.2)

/-- `CLsSamples.generate` (sampling.py:492-507). -/
def generate {P Q : Type} (samplersSb : List P) (samplersB : List Q) (s : CLsSamples) : CLsSamples × Option PyErr :=
  let r := s.clsb.generate samplersSb
  match r.2 with
  | some e => (⟨r.1, s.cl_b⟩, some e)
  | none =>
    let q := s.cl_b.generate samplersB
    (⟨r.1, q.1⟩, q.2)

end CLsSamples
end Verif
