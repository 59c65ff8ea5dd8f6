import Verif.Model.BC
import Verif.Model.Track

/-!
# Model of the call of a boundary function in the compiled movers
-/

namespace Dt
variable {K : Type} [Field K] {g p : Nat} {τ ρ : Type}

/-- `bcFunctionDict[std::make_pair(facValue, species_name)]` and the call
(cpp/advance_charged_species_in_E_field_spherical_r.cpp:427-428, ..._cartesian_x.cpp:422-423,
..._cartesian_xy.cpp:381-382), with the table `tab` made by `cppBcDict`.  Simplification: if there is no
entry, `operator[]` makes a null pointer and the call has undefined behaviour; here it is an error. -/
def tableBC (tab : Int → String → Option (τ × BCall K g p ρ → Except Err (τ × Part K p ρ))) (sn : String) :
    Int → τ → BCall K g p ρ → Except Err (τ × Part K p ρ) :=
  fun tag st call => match tab tag sn with
    | some f => f (st, call)
    | none => .error .key

end Dt
