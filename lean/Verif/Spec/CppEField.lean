import Verif.Model.Geometry

/-! # Specification of the field columns of a crossing record of the compiled movers -/

namespace Dt.Spec
variable {K : Type} [Field K] {d : Nat}

/-- The two field columns for the solved field `e` of the particle, given what the two arrays held:
only the first component is right; there is no record if the field was switched off. -/
def compiledCrossing (off : Prop) [Decidable off] (e : Vec K d) (held : Vec K d × Vec K d) :
    Except Err (Vec K d × Vec K d) :=
  if off then .error .ub
  else .ok (fun j => if j.val = 0 then e j else held.1 j,
    fun j => if j.val = 0 then 0 else held.2 j)

end Dt.Spec
