import Verif.Model.CppGeometry

/-!
# Specification: the compiled tables describe the same cell as the Python dictionaries
-/

namespace Dt
variable {K : Type} {g : Nat}

/-- The arrays of the compiled code hold the normals (three numbers per facet, of which the first
`g` count) and the vertex coordinates (`g` numbers per vertex) of the cell. -/
structure CppCell.Twin (cc : CppCell K) (c : Cell K g) : Prop where
  normals : ∀ (k : Nat) (n : Vec K g), c.normals[k]? = some n →
    ∀ i : Fin g, cc.normals[k * 3 + i.1]? = some (n i)
  coords : ∀ (j : Nat) (v : Vec K g), c.verts[j]? = some v →
    ∀ i : Fin g, cc.coords[j * g + i.1]? = some (v i)

/-- What the compiled `find_facet` returns when the Python one returns `r`: the same, except that a
move that crosses no facet ends the program in 1D and reads outside the array of normals in 2D and
3D. -/
def cppReply {K : Type} (g : Nat) (still : Prop) [Decidable still] :
    Except Err (Int × K × Option (Vec K g)) → Except Err (Int × K × Option (Vec K g))
  | .error e => .error e
  | .ok (k, f, n) =>
    if k = -1 ∧ ¬ still then .error (if g = 1 then .exit else .ub) else .ok (k, f, n)

end Dt
