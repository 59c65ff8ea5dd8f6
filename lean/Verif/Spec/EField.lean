import Verif.Model.Geometry

/-! # Specification of the field applied to a particle -/

namespace Dt.Spec
variable {K : Type} [Field K] {d : Nat} {α γ : Type}

/-- `v` is the value at `p` of the solved field `-neg`; the field counts if given and switched
on, and is zero otherwise. -/
def IsSolved (neg : Option (α → Except Err (Vec K d))) (on : Bool) (p : α) (v : Vec K d) : Prop :=
  match neg with
  | some F => if on then ∃ w, F p = .ok w ∧ v = -w else v = 0
  | none => v = 0

/-- `v` is the value at `p` of the external field, times a random number that the generator can
produce; the field counts if given and switched on, and is zero otherwise. -/
def IsExternal (normal : γ → K × γ) (ext : Option (α → Except Err (Vec K d))) (on : Bool) (p : α)
    (v : Vec K d) : Prop :=
  match ext with
  | some F => if on then ∃ w g, F p = .ok w ∧ v = (normal g).1 • w else v = 0
  | none => v = 0

/-- The two field columns of a record made when a marked facet is crossed, for the solved and
external fields `e` and `x` that count: an error if one of the fields is given but switched off. -/
def crossing (negGiven sOn extGiven xOn : Bool) (e x : Vec K d) : Except Err (Vec K d × Vec K d) :=
  if negGiven = true ∧ sOn = false then .error .type
  else if extGiven = true ∧ xOn = false then .error .name
  else .ok (e + x, x)

end Dt.Spec
