import Verif.Model.Output
import Verif.Spec.Stores
import Verif.Model.SAPReach

/-! # Specification of the particle file in terms of lists of particles -/

namespace Dt
namespace Spec
open Output
variable {α V T : Type}

/-- All particles of a run with the number of their species, species after species. -/
def rows (pops : List (V × List α)) : List (V × α) :=
  pops.flatMap (fun p => p.2.map (fun x => (p.1, x)))

/-- What a requested attribute is for one particle (`none`: not available). -/
def entry (col : Col α V) (r : V × α) : Option V :=
  match col with
  | .speciesIndex => some r.1
  | .field get true => some (get r.2)
  | _ => none

/-- `data` is the attribute of all particles, row by row. -/
def IsColumn (col : Col α V) (rs : List (V × α)) (data : List V) : Prop :=
  rs.map (entry col) = data.map some

/-- A species (container, number) holds a population. A container whose count is 0 holds none,
whatever is left in it. -/
def Held (sp : Output.Species α V) (p : V × List α) : Prop :=
  sp.index = p.1 ∧
    ((SAP.Reachable sp.sap ∧ Stores sp.sap p.2) ∨ (sp.sap.getNumberOfItems = 0 ∧ p.2 = []))

/-- The calls that find a new step, given the last step written. -/
def newSteps {β : Type} (step : β → Int) : Int → List β → List β
  | _, [] => []
  | last, c :: cs => if step c = last then newSteps step last cs else c :: newSteps step (step c) cs

end Spec
end Dt
