import Verif.Model.SAP

/-! # Specification vocabulary: what a container holds, through its public methods -/

namespace Dt.Spec

/-- The container holds the particles `xs`, in this order: it reports their number and
`sap[i]` is the `i`-th one. -/
def Stores {α : Type _} (s : SAP α) (xs : List α) : Prop :=
  s.getNumberOfItems = xs.length ∧ ∀ i : Nat, (h : i < xs.length) → s.getItem i = .ok xs[i]

end Dt.Spec
