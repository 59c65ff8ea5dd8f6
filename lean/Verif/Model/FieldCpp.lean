import Verif.Model.Field

/-!
# Number densities with compiled functions (Particle_Module.py:936-992)
-/

namespace Dt.Fld
variable {K α : Type} [Field K]

/-- The body of the loop on segments (Particle_Module.py:963-984).  `pdim` is `self.particle_dimension`.  The name
`dnt_cpp` is not defined in the module: every branch that calls one of its functions raises a NameError, before
anything is changed; if `pdim` is not 1, 2 or 3, no branch is taken. -/
def weighSegmentCPP (pdim : Nat) (st : Option (List K) × Option (List K)) : Except Err (Option (List K) × Option (List K)) :=
  if st.1.isSome ∧ (pdim = 3 ∨ pdim = 2 ∨ pdim = 1) then .error .name
  else if st.2.isSome ∧ (pdim = 3 ∨ pdim = 2 ∨ pdim = 1) then .error .name
  else .ok st

/-- `accumulate_number_density_CPP(species, dof_F, cell_F)` (Particle_Module.py:937-992).  Lines 988-989, the conversion to
densities, raise a NameError as well. -/
def accumulateCPP (pdim : Nat) (s : SAP α) (dofF cellF : Option (List K)) :
    Except Err (SAP α × (Option (List K) × Option (List K))) := do
  let (s', st) ← s.outLoop (SAP.readBody (fun st _ => weighSegmentCPP pdim st)) (dofF, cellF)
  if cellF.isSome then .error .name else .ok (s', st)

end Dt.Fld
