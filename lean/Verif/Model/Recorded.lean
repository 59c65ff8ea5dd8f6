import Verif.Model.Py

/-!
# Model of the sizes computed in `RecordedData_Module.py`

Simplification: the source divides Python ints with `/` (a float) and applies
`int`; here the division is exact and rounded down.  The two agree as long as
the quotient is representable well below 2^53.
-/

namespace Dt
namespace Recorded

/-- `Trajectory_C.__init__` (RecordedData_Module.py:372-381): (skip, npoints).
`max_points` None means every step; `max_points = 0` divides by zero;
`extra_points` None (the default of `TrajectoryInput_C`, line 297) makes the
addition a TypeError. -/
def trajSizes (nTimesteps : Nat) (maxPoints extraPoints : Option Nat) : Except Err (Nat × Nat) := do
  let skip ← match maxPoints with
    | none => .ok 1
    | some 0 => .error .zerodiv
    | some m => .ok (nTimesteps / m + 1)
  match extraPoints with
  | none => .error .type
  | some e => return (skip, nTimesteps / skip + 1 + e)

/-- `History_C.__init__` (RecordedData_Module.py:121-133): (skip, npoints).  The
branch for a given `max_points` refers to the undefined name `max_points`. -/
def historySizes (nTimesteps : Nat) (maxPoints : Option Nat) : Except Err (Nat × Nat) :=
  match maxPoints with
  | none => .ok (1, nTimesteps / 1 + 1)
  | some _ => .error .name

/-- The steps `0..n` at which the main loop records
(`count % skip == 0`, examples/sphere1D/sphere1D.py:1300-1312, plus the initial
record at step 0). -/
def scheduled (nTimesteps skip : Nat) : List Nat :=
  (List.range (nTimesteps + 1)).filter (fun s => s % skip == 0)

end Recorded
end Dt
