import Verif.Model.TrajFiles
import Verif.Spec.Traj

/-!
# Specification of the trajectory files

What a reader finds in a file: attributes, groups and datasets are looked up by name.
-/

namespace Dt.Spec
open TrajFiles
variable {δ V : Type}

/-- The attribute with the given name. -/
def attrOf (f : File V) (key : String) : Option (Att V) :=
  (f.attrs.find? (fun e => e.1 == key)).map Prod.snd

/-- The group with the given name. -/
def groupOf (f : File V) (name : String) : Option (Group V) :=
  f.groups.find? (fun g => g.name == name)

/-- The dataset with the given name. -/
def setOf (g : Group V) (name : String) : Option V :=
  (g.sets.find? (fun e => e.1 == name)).map Prod.snd

/-- The group shows the point: its time is the point's `t`, and it has exactly one dataset per recorded
attribute, with the point's value. -/
structure ShowsPoint (val : δ → String → V) (wide : Kind → V → V) (atts : List (String × Kind))
    (g : Group V) (d : δ) : Prop where
  time : g.time = some (val d "t")
  value : ∀ n k, (n, k) ∈ atts → setOf g n = some (wide k (val d n))
  only : ∀ n, n ∉ atts.map Prod.fst → setOf g n = none

/-- The file shows the given points of a particle of a species: heading, species, mass and charge are
stored, group `Step#i` shows point number `i`, and there are no other groups. -/
structure ShowsPoints (val : δ → String → V) (wide : Kind → V → V) (title author : String)
    (s : Species δ V) (f : File V) (pts : List δ) : Prop where
  title : attrOf f "Title:" = some (.str title)
  author : attrOf f "Author:" = some (.str author)
  species : attrOf f ("particle_type_" ++ Nat.repr s.index) = some (.str s.name)
  mass : attrOf f ("mass_" ++ Nat.repr s.index) = some (.num s.mass)
  charge : attrOf f ("charge_" ++ Nat.repr s.index) = some (.num s.charge)
  steps : ∀ (i : Nat) (d : δ), pts[i]? = some d →
    ∃ g, groupOf f ("Step#" ++ Nat.repr i) = some g ∧ ShowsPoint val wide s.atts g d
  count : f.groups.length = pts.length

/-- The lists of a species fit together: one length, one unique ID and one data array per trajectory,
no trajectory longer than its data array; the recorded attributes are numbers with different names, one
of them `t`. -/
structure Writable (s : Species δ V) : Prop where
  lens : s.tr.len.length = s.tr.idx.length
  rows : s.tr.data.length = s.tr.idx.length
  ids : s.uids.length = s.tr.idx.length
  known : ∀ u ∈ s.uids, u.isSome
  fits : ∀ (j : Nat) row n, s.tr.data[j]? = some row → s.tr.len[j]? = some n → n ≤ row.length
  numbers : ∀ a ∈ s.atts, a.2 ≠ .other
  names : (s.atts.map Prod.fst).Nodup
  hasTime : "t" ∈ s.atts.map Prod.fst

end Dt.Spec
