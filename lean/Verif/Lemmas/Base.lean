import Verif.Model.Base
import Verif.Lemmas.Dict
/-! Helper lemmas on `load_field`. -/
namespace Verif
variable {K : Type}

theorem loadStr_eq (key : String) (d : Dict (MVal K)) (df o : Option String) :
    d.get? key = some (.ofStr o) ∨ (d.get? key = none ∧ df = o) →
    loadStr key d df = .ok o := by
  rintro (h | ⟨h, rfl⟩)
  · cases o <;> simp [loadStr, loadField, h, MVal.ofStr, MVal.toStr?, MVal.isInstance, bind, Except.bind]
  · cases df <;> simp [loadStr, loadField, h, MVal.ofStr, MVal.toStr?, bind, Except.bind]

theorem loadNum_eq (key : String) (d : Dict (MVal K)) (df o : Option K) :
    d.get? key = some (.ofNum o) ∨ (d.get? key = none ∧ df = o) →
    loadNum key d df = .ok o := by
  rintro (h | ⟨h, rfl⟩)
  · cases o <;> simp [loadNum, loadField, h, MVal.ofNum, MVal.toNum?, MVal.isInstance, bind, Except.bind]
  · cases df <;> simp [loadNum, loadField, h, MVal.ofNum, MVal.toNum?, bind, Except.bind]

end Verif
