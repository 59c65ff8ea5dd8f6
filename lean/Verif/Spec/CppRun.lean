import Verif.Model.CppRun
import Verif.Spec.Leapfrog

/-!
# Specification of such a program without cells, facets and storage
-/

namespace Dt
open CppProgram (Obs)
variable {K : Type} [Field K] [LinearOrder K] {g p : Nat} {τ ρ : Type}

/-- The populations after a mover call: in the species of the kind `charged` every particle makes a move,
and those for which `keep` does not hold then are dropped; the order stays. -/
def Spec.MovedAll (charged : Bool) (motion : Nat → Part K p ρ → Vec K p × Vec K p × ρ) (keep : Vec K p → Bool)
    (ls ms : List (Bool × List (Part K p ρ))) : Prop :=
  ms.length = ls.length ∧ ∀ (k : Nat) (c : Bool) (xs : List (Part K p ρ)), ls[k]? = some (c, xs) → ∃ ys : List (Part K p ρ), ms[k]? = some (c, ys) ∧
    (c ≠ charged → ys = xs) ∧
    (c = charged → ys.map kin = (xs.map (motion k)).filter (fun z => keep z.1))

/-- `Runs motionC motionN keep sl calls ls os ms`: from the populations `ls` the calls lead to the
populations `ms` and let the program see `os`. -/
inductive Spec.Runs (motionC : Nat → (Part K p ρ → Option (Vec K p)) → Part K p ρ → Vec K p × Vec K p × ρ)
    (motionN : Nat → Part K p ρ → Vec K p × Vec K p × ρ) (keep : Vec K p → Bool) (sl : Nat) :
    List (CppRun.Call K p ρ) → List (Bool × List (Part K p ρ)) → List (Obs (Part K p ρ)) →
    List (Bool × List (Part K p ρ)) → Prop
  | nil (ls) : Runs motionC motionN keep sl [] ls [] ls
  | charged {time E cs ls ls' os ms} (h : Spec.MovedAll true (fun k => motionC k (E k)) keep ls ls')
      (r : Runs motionC motionN keep sl cs ls' os ms) :
      Runs motionC motionN keep sl (.charged time E :: cs) ls os ms
  | neutral {time cs ls ls' os ms} (h : Spec.MovedAll false motionN keep ls ls')
      (r : Runs motionC motionN keep sl cs ls' os ms) :
      Runs motionC motionN keep sl (.neutral time :: cs) ls os ms
  | createList {k q c xs cs ls os ms} (h : ls[k]? = some (c, xs))
      (r : Runs motionC motionN keep sl cs (ls.set k (c, xs ++ [q])) os ms) :
      Runs motionC motionN keep sl (.createList k q :: cs) ls
        (.created (xs.length % sl : Nat) xs.length q :: os) ms
  | createSource {k q c xs cs ls os ms} (h : ls[k]? = some (c, xs))
      (r : Runs motionC motionN keep sl cs (ls.set k (c, xs ++ [q])) os ms) :
      Runs motionC motionN keep sl (.createSource k q :: cs) ls
        (.created (xs.length % sl : Nat) xs.length q :: os) ms
  | look {k c xs cs ls os ms} (h : ls[k]? = some (c, xs)) (r : Runs motionC motionN keep sl cs ls os ms) :
      Runs motionC motionN keep sl (.look k :: cs) ls (.items xs :: os) ms

end Dt
