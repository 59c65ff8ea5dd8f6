import Verif.Spec.ReverseMesh

/-!
# Specification: particles divided into several
-/

namespace Dt.Spec
variable {K : Type} [Field K] {g : Nat} {ρ V σ τ : Type}

/-- All particles, each with the name and the charge of its species. -/
def labelled (i : Ideal K V (Part K g ρ) σ) : List (String × K × Vec K g × Vec K g × ρ) :=
  i.pops.flatMap (fun s => s.st.items.map (fun q => (s.name, s.charge, kin q)))

/-- Parts of a particle, at the same place, with the same velocity; `split` gives for the name of a species, its charge, and the rest of a particle
the same data of the parts. -/
def partsOf (split : String → K → ρ → List (String × K × ρ)) (k : String × K × Vec K g × Vec K g × ρ) : List (String × K × Vec K g × Vec K g × ρ) :=
  (split k.1 k.2.1 k.2.2.2.2).map (fun r => (r.1, r.2.1, k.2.2.1, k.2.2.2.1, r.2.2))

/-- The particles of `i'` are the parts of the particles of `i`, in any order. -/
def Divided (split : String → K → ρ → List (String × K × ρ)) (i : Ideal K V (Part K g ρ) σ) (i' : Ideal K V (Part K g ρ) τ) : Prop :=
  (labelled i').Perm ((labelled i).flatMap (partsOf split))

/-- The charges of the parts of a particle, with their weights, add up to its charge (a particle without charge or weight may have no parts); they have
the same ratio of charge to mass; parts of charged particles are charged and parts of neutral particles neutral. -/
structure Divides (w w' : ρ → K) (qom qom' : String → K) (split : String → K → ρ → List (String × K × ρ)) : Prop where
  charge : ∀ n ch r, ((split n ch r).map (fun p => p.2.1 * w' p.2.2)).sum = ch * w r
  ratio : ∀ n ch r, ∀ p ∈ split n ch r, qom' p.1 = qom n
  neutral : ∀ n ch r, ∀ p ∈ split n ch r, p.2.1 = 0 ↔ ch = 0

end Dt.Spec
