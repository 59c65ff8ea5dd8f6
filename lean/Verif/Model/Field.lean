import Mathlib.Algebra.Field.Basic
import Mathlib.Algebra.Order.Field.Basic
import Verif.Model.OutLoop

/-!
# Model of `Field_C`, of the density accumulation and of the source of the field solve

`Field_C` (Dolfin_Module.py:898-1406); `accumulate_number_density`
(Particle_Module.py:892-934), `accumulate_charge_density_from_particles` (2869-2891);
`solve_for_phi` (Dolfin_Module.py:1625-1711).

The values of a field are `function_values`, a NumPy array, here a list over a field `K`
(simplification: rounding of 64-bit floats is not modelled; nor are infinities and
NaN, i.e. divisors are assumed non-zero in the theorems).  The finite-element data supplied by
Dolfin (`dofmap().cell_dofs`, `evaluate_basis_all`) are arguments.
-/

namespace Dt
namespace Fld
variable {K : Type} [Field K]

/-- NumPy `a[idx]` with an index array. -/
def take (v : List K) : List Nat → Except Err (List K)
  | [] => .ok []
  | i :: is => do
    let x ← pyGet v i
    let xs ← take v is
    return x :: xs

/-- NumPy `a[idx] = b` with an index array: stores in order; the shapes must agree. -/
def put : List K → List Nat → List K → Except Err (List K)
  | v, [], [] => .ok v
  | v, i :: is, b :: bs => do
    let v' ← pySet v i b
    put v' is bs
  | _, _, _ => .error .value

/-- NumPy `a[idx] op= b` with arrays: the old values are gathered first, then combined, then
stored (so a repeated index is updated once only). -/
def update (op : K → K → K) (v : List K) (idx : List Nat) (b : List K) : Except Err (List K) := do
  let old ← take v idx
  if old.length = b.length then put v idx (List.zipWith op old b) else .error .value

/-- NumPy `a[idx] op= c` with a scalar. -/
def updateS (op : K → K → K) (v : List K) (idx : List Nat) (c : K) : Except Err (List K) := do
  let old ← take v idx
  put v idx (old.map (fun x => op x c))

/-- The part of a function space used: `dofmap().cell_dofs(cellIndex)`; the values of the
basis functions of a cell at a particle, `element().evaluate_basis_all` (the source looks up
the cell by the particle's `cell_index` and evaluates at its position). -/
structure Space (K α : Type) where
  dofs : Nat → List Nat
  basis : α → List K

/-- The record fields used: `cell_index`, `weight`. -/
structure Attrs (K α : Type) where
  cell : α → Nat
  weight : α → K

variable {α : Type}

/-- `interpolate_delta_function_to_dofs(p)` (Dolfin_Module.py:1252-1353). -/
def deposit (A : Attrs K α) (S : Space K α) (v : List K) (p : α) : Except Err (List K) :=
  update (· + ·) v (S.dofs (A.cell p)) ((S.basis p).map (fun b => A.weight p * b))

/-- `add_weight_to_cell(p)` (Dolfin_Module.py:1357-1381). -/
def addWeight (A : Attrs K α) (S : Space K α) (v : List K) (p : α) : Except Err (List K) :=
  updateS (· + ·) v (S.dofs (A.cell p)) (A.weight p)

/-- `divide_by_cell_volumes()` (Dolfin_Module.py:1384-1404); `n` cells, with
`cell_volume_dict`. -/
def divideByVolumes (S : Space K α) (vol : Nat → K) (n : Nat) (v : List K) : Except Err (List K) :=
  (List.range n).foldlM (fun v c => updateS (· / ·) v (S.dofs c) (vol c)) v

/-- `set_values(value)` (Dolfin_Module.py:963-992) without a subdomain. -/
def setValues (v : List K) (x : K) : List K := v.map (fun _ => x)

/-- `set_values(value, subdomain)` (Dolfin_Module.py:982-989); a subdomain is given by the
cell indices of a `CellSet_C`. -/
def setValuesOn (S : Space K α) (cells : List Nat) (v : List K) (x : K) : Except Err (List K) :=
  cells.foldlM (fun v c => updateS (fun _ y => y) v (S.dofs c) x) (setValues v 0)

/-- `multiply_values(multiplier)` (Dolfin_Module.py:1013-1020), not gaussian. -/
def multiplyValues (v : List K) (m : K) : List K := v.map (fun x => x * m)

/-- `multiply_values(multiplier, subdomain=...)` (Dolfin_Module.py:1021-1043). -/
def multiplyValuesOn (S : Space K α) (cells : List Nat) (v : List K) (m : K) :
    Except Err (List K) :=
  cells.foldlM (fun v c => updateS (· * ·) v (S.dofs c) m) v

/-- `multiply_add(field, multiplier)` (Dolfin_Module.py:1080-1100); arrays of different lengths
cannot be added (ValueError). -/
def multiplyAdd (v w : List K) (m : Option K) : Except Err (List K) :=
  if v.length = w.length then
    .ok (List.zipWith (fun x y => x + (match m with | none => y | some c => c * y)) v w)
  else .error .value

/-- The loop body of `accumulate_number_density` (Particle_Module.py:918-927) for one
particle, on the optional DOF and cell fields. -/
def accumulateOne (A : Attrs K α) (SD SC : Space K α)
    (st : Option (List K) × Option (List K)) (p : α) :
    Except Err (Option (List K) × Option (List K)) := do
  let d ← match st.1 with
    | none => .ok none
    | some v => (deposit A SD v p).map some
  let c ← match st.2 with
    | none => .ok none
    | some v => (addWeight A SC v p).map some
  return (d, c)

/-- `accumulate_number_density(species, dof_F, cell_F)` (Particle_Module.py:892-934). -/
def accumulate (A : Attrs K α) (SD SC : Space K α) (vol : Nat → K) (ncell : Nat) (s : SAP α)
    (dofF cellF : Option (List K)) :
    Except Err (SAP α × (Option (List K) × Option (List K))) := do
  let (s', (d, c)) ← s.outLoop (SAP.readBody (fun st ps => ps.foldlM (accumulateOne A SD SC) st))
    (dofF, cellF)
  let c' ← match c with
    | none => .ok none
    | some v => (divideByVolumes SC vol ncell v).map some
  return (s', (d, c'))

/-- `accumulate_charge_density_from_particles` (Particle_Module.py:2869-2891): the charges and density fields of the
species, in order; `mesh` says whether there is a particle mesh. -/
def chargeDensity (mesh : Bool) (v : List K) (species : List (K × List K)) : Except Err (List K) :=
  if mesh then species.foldlM (fun v qs => multiplyAdd v qs.2 (some qs.1)) v else .error .runtime

/-- Lines 1308-1332 of the main loop (examples/sphere1D/sphere1D.py): zero the charge field `v` and
the density field of each species, accumulate the density of each species, add charge times
density.  A species is given by its charge, its container and its (old) DOF and cell fields. -/
def assembleCharge (A : Attrs K α) (SD SC : Space K α) (vol : Nat → K) (ncell : Nat) :
    List K → List (K × SAP α × List K × List K) → Except Err (List K)
  | v, [] => .ok v
  | v, (q, s, d, c) :: rest => do
    let (_, (d', _)) ← accumulate A SD SC vol ncell s (some (setValues d 0)) (some (setValues c 0))
    match d' with
    | none => .error .attribute
    | some d' => do
      let v' ← multiplyAdd v d' (some q)
      assembleCharge A SD SC vol ncell v' rest

/-- The state touched by `solve_for_phi`: the charge field passed in, `self.b`, and the
solution. -/
structure SolveSt (K : Type) where
  charge : List K
  b : List K
  phi : List K

/-- `solve_for_phi(assembled_charge, assembled_charge_factor)` (Dolfin_Module.py:1678-1700).
`bc` applies the Dirichlet conditions to the right-hand side and `solve` is the linear solver
(Dolfin); `useCharge` says whether `assembled_charge` was passed. -/
def solveForPhi (bc solve : List K → List K) (st : SolveSt K) (useCharge : Bool)
    (factor : Option K) : SolveSt K :=
  if useCharge then
    let charge := match factor with
      | none => st.charge
      | some f => st.charge.map (fun x => x * f)
    let b := bc charge
    ⟨charge, b, solve b⟩
  else { st with phi := solve st.b }

end Fld
end Dt
