import Verif.Spec.CppRounded
import Verif.Spec.Rounded

/-!
# Specification: Python and compiled code on the same machine
-/

namespace Dt.Spec
variable {K : Type} [Field K] [LinearOrder K] {g p : Nat}

/-- The two codes run on the same machine: the same rounding and the same scalar products, and no fused operations. -/
structure SameMachine (C : CArith K) (A : Arith K g) : Prop where
  fl : C.fl = A.fl
  dot : C.dot g = A.dot
  mulAdd : ∀ a b c, C.mulAdd a b c = A.fl (a + A.fl (b * c))

/-- The two tests for a point in a cell agree. -/
def SameTest (C : CArith K) (A : Arith K g) (h : g ≤ p) (cm : CppMesh K) (M : Mesh K g) : Prop :=
  ∀ ci c cc, M.cell ci = some c → cm.cell ci = some cc → ∀ x : Vec K p,
    C.inside g cm.coords cc.vertices (List.ofFn x) = .ok (A.contains c (proj h x))

end Dt.Spec
