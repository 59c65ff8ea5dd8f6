import Verif.Spec.Rounded

/-!
# Specification: the size of rounding errors
-/

namespace Dt.Spec
variable {K : Type} [Field K] [LinearOrder K] {g p : Nat} {τ ρ : Type}

/-- Numbers up to `R` are rounded with an error of at most `η`. -/
def ErrorAtMost (fl : K → K) (R η : K) : Prop := ∀ a, |a| ≤ R → |fl a - a| ≤ η

/-- The boundary functions change neither position nor velocity (e.g. they absorb or count particles). -/
def KeepsMotion (bc : Int → τ → BCall K g p ρ → Except Err (τ × Part K p ρ)) : Prop :=
  ∀ v st c r, bc v st c = .ok r → r.2.x = c.part.x ∧ r.2.u = c.part.u

/-- The results of all operations before rounding, in the step that takes a particle from `x`, `u` to the velocity `u'`, are at most `R`. -/
def InRange (fl : K → K) (R dt qmdt : K) (e x u u' : Vec K p) : Prop :=
  ∀ i, |qmdt * e i| ≤ R ∧ |u i + fl (qmdt * e i)| ≤ R ∧ |u' i * dt| ≤ R ∧ |x i + fl (u' i * dt)| ≤ R

end Dt.Spec
