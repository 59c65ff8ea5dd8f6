import Verif.Model.CppTrack
import Verif.Spec.CppGeometry
import Verif.Spec.Geometry

/-!
# Specification: what it means for the compiled and the Python code to look at the same mesh
-/

namespace Dt
variable {K : Type} {g p : Nat}

/-- The compiled cell `cc` (with the coordinates of all vertices of the mesh) and the Python cell
`c` describe the same cell. -/
structure CppMeshCell.Twin (coords : List K) (cc : CppMeshCell K) (c : Cell K g) : Prop where
  geo : cc.geo.Twin c
  verts : ∀ (j : Nat) (x : Vec K g), c.verts[j]? = some x → ∃ v, cc.vertices[j]? = some v ∧
    ∀ i : Fin g, coords[v * g + i.1]? = some (x i)
  facets : cc.facets = c.facets
  neighbors : cc.neighbors = c.neighbors

/-- The two meshes have the same cells and markers, and all cells are simplices. -/
structure CppMesh.Twin [Field K] [LinearOrder K] (cm : CppMesh K) (M : Mesh K g) : Prop where
  cells : ∀ ci c, M.cell ci = some c → c.Regular ∧ ∃ cc, cm.cell ci = some cc ∧
    cc.Twin cm.coords c
  none_ : ∀ ci, M.cell ci = none → cm.cell ci = none
  marker : cm.marker = M.marker

/-- The mover puts `x` and `x0` where its other lines read them. -/
def Layout.Right (L : Layout K p) : Prop := ∀ (s : Scratch K) (x x0 : Vec K p) (i : Fin p),
  L.fill s x x0 i = x i ∧ L.fill s x x0 (L.off + i) = x0 i ∧ L.fill s x x0 (p + i) = x0 i

/-- Two computations that give the same results (an error of one corresponds to some error of the
other). -/
def SameOk {α : Type} (a b : Except Err α) : Prop := ∀ r, a = .ok r ↔ b = .ok r

/-- `SameOk` up to a component that only the first one has. -/
def SameOkFst {α β : Type} (a : Except Err (α × β)) (b : Except Err α) : Prop :=
  ∀ r, (∃ x, a = .ok (r, x)) ↔ b = .ok r

end Dt

namespace Dt.Spec
variable {σ₁ σ₂ α β : Type}

/-- Two computations with states: if one succeeds so does the other, with the same result and
related states. -/
def Sim (R : σ₁ → σ₂ → Prop) (a : Except Err (σ₁ × β)) (b : Except Err (σ₂ × β)) : Prop :=
  (∀ st1 r, a = .ok (st1, r) → ∃ st2, b = .ok (st2, r) ∧ R st1 st2) ∧
  (∀ st2 r, b = .ok (st2, r) → ∃ st1, a = .ok (st1, r) ∧ R st1 st2)

end Dt.Spec
