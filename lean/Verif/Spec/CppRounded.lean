import Verif.Model.CppRounded

/-!
# Specification: machine numbers of compiled code, and ways through the cells
-/

namespace Dt.Spec
variable {K : Type} [Field K] [LinearOrder K]

/-- What is known of every binary floating-point format and rounding mode, as long as nothing overflows: rounding is monotone,
machine numbers are not changed, 0 and 1 are machine numbers, results are machine numbers, and adding a product that is not negative
to a machine number does not make it smaller, whether fused or not. -/
structure IsCRounding (A : CArith K) : Prop where
  mono : ∀ a b, a ≤ b → A.fl a ≤ A.fl b
  idem : ∀ a, A.fl (A.fl a) = A.fl a
  zero : A.fl 0 = 0
  one : A.fl 1 = 1
  dot : ∀ g u v, A.fl (A.dot g u v) = A.dot g u v
  mulAdd : ∀ a b c, A.fl (A.mulAdd a b c) = A.mulAdd a b c
  grows : ∀ a b c, A.fl a = a → 0 ≤ b * c → a ≤ A.mulAdd a b c

/-- Exact arithmetic. -/
def cExactly : CArith K := ⟨id, fun a b c => a + b * c, fun _ => Dt.dot, fun g => isInsideVertices g g⟩

/-- Two roundings, one after the product and one after the sum. -/
def separate (fl : K → K) (dot : (g : Nat) → Vec K g → Vec K g → K) (inside : Nat → List K → List Nat → List K → Except Err Bool) :
    CArith K := ⟨fl, fun a b c => fl (a + fl (b * c)), dot, inside⟩

/-- One rounding: fused multiply and add. -/
def fused (fl : K → K) (dot : (g : Nat) → Vec K g → Vec K g → K) (inside : Nat → List K → List Nat → List K → Except Err Bool) :
    CArith K := ⟨fl, fun a b c => fl (a + b * c), dot, inside⟩

/-- `CWalk M k a b`: a way from cell `a` to cell `b` in `k` moves; a move goes to a neighbour of the cell, or stays in a cell
that has a side without neighbour. -/
inductive CWalk (M : CppMesh K) : Nat → Int → Int → Prop
  | start (a : Int) : CWalk M 0 a a
  | next {k a b b'} (c : CppMeshCell K) : CWalk M k a b → M.cell b = some c → b' ∈ c.neighbors → b' ≠ -1 → CWalk M (k + 1) a b'
  | turn {k a b} (c : CppMeshCell K) : CWalk M k a b → M.cell b = some c → -1 ∈ c.neighbors → CWalk M (k + 1) a b

end Dt.Spec
