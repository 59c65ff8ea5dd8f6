import Mathlib.Algebra.Field.Basic
import Verif.Model.Geometry
import Verif.Model.Sources
/-!
# The sample lists of particles

The modules UserParticles_1D.py, UserParticles_2D_e.py, UserParticles_2D_H_He_e.py, UserParticles_3D.py
and UserParticles_H_He_e.py, which come with the program, contain functions that list particles.  Such
a function is called with `type='listed'` and returns the number of particles and a tuple of tuples,
one for each particle; most of them take the identities from the run-global counter
`Particle_C.UNIQUE_ID_COUNTER`.

Not modelled: `initial_electrons`, `initial_ions`, `few_initial_electrons`, `few_initial_ions` of
UserParticles_H_He_e.py:44-58 and :209-223, which are called nowhere and use the undefined name
`Convert`; printing.
-/
namespace Dt.UserLists
open Sources

variable {K : Type}

/-- An entry of the tuple of a particle: a float or an int. -/
inductive Entry (K : Type) where
  | real (x : K)
  | int (n : Int)

/-- The tuple of a particle. -/
abbrev Tup (K : Type) := List (Entry K)

/-- A function listing particles: from the argument `type` and the counter it computes the number of
particles, the list and the new counter. -/
abbrev Lister (K : Type) := String → Nat → Except Err (Nat × List (Tup K) × Nat)

/-- `DELETE_FLAG` (Particle_Module.py:140). -/
def deleteFlag : Nat := 0b1

/-- `if type != 'listed': sys.exit(...)`, with which every function begins (e.g.
UserParticles_1D.py:57-59). -/
def ifListed (type : String) (r : Except Err (Nat × List (Tup K) × Nat)) :
    Except Err (Nat × List (Tup K) × Nat) :=
  if type ≠ "listed" then .error .exit else r

/-- `np = len(particle_list)`; `return np, particle_list` (e.g. UserParticles_1D.py:95-97). -/
def ret (list : List (Tup K)) (ctr : Nat) : Except Err (Nat × List (Tup K) × Nat) :=
  .ok (list.length, list, ctr)

section
variable [DivisionRing K]

/-- The tuple `(x, x0, u, weight, bitflags, cell_index, unique_ID, crossings)` (e.g.
UserParticles_2D_e.py:89). -/
def tup (x u : List K) (weight : K) (flags uid : Int) : Tup K :=
  x.map .real ++ x.map .real ++ u.map .real ++ [.real weight, .int flags, .int noCell, .int uid, .int 0]

/-- `neutral_H` of UserParticles_1D.py:49-98: its tuples end with `unique_ID`. -/
def neutralH1D : Lister K := fun type c => ifListed type <|
  ret [[.real (19 / 2), .real (19 / 2), .real (-2), .real 2, .int (0 ||| trajFlag : Nat), .int noCell, .int c],
    [.real (-19 / 2), .real (-19 / 2), .real 2, .real 3, .int (0 ||| trajFlag : Nat), .int noCell, .int (c + 1 : Nat)]] (c + 2)

/-- The rotation `xnew = x*cos(theta)-y*sin(theta)`, `ynew = x*sin(theta)+y*cos(theta)`
(UserParticles_2D_e.py:72-74). -/
def rotated (cos sin : K) (x y : K) : List K := [x * cos - y * sin, x * sin + y * cos]

/-- `trajelectrons` of UserParticles_2D_e.py:54-117; the arguments are the cosines and sines of pi/4 and
pi/8.  The z-components, which do not enter the tuples, are left out here and below. -/
def trajElectrons (cos4 sin4 cos8 sin8 : K) : Lister K := fun type c => ifListed type <|
  ret [tup (rotated cos4 sin4 (19 / 4) 0) [0, 0] 1 (0 ||| trajFlag : Nat) c,
    tup (rotated cos8 sin8 (19 / 4) 0) [0, 0] 2 (0 ||| trajFlag : Nat) (c + 1 : Nat)] (c + 2)

/-- `test_electrons` and `two_electrons` of UserParticles_2D_e.py:119-187 and :190-254, which differ in
what they print. -/
def testElectrons (cos4 sin4 : K) : Lister K := fun type c => ifListed type <|
  ret [tup (rotated cos4 sin4 (19 / 4) 0) [0, 0] 1 (0 ||| trajFlag : Nat) c,
    tup (rotated cos4 sin4 (11 / 10) 0) [0, 0] 2 (0 ||| trajFlag : Nat) (c + 1 : Nat)] (c + 2)

/-- `testelectrons` of UserParticles_2D_H_He_e.py:45-88: line 64 uses the name `Particles_C`, which is
neither defined nor imported (lines 14-17): NameError. -/
def testElectronsHHe : Lister K := fun type _ => ifListed type (.error .name)

/-- `neutral_H` of UserParticles_3D.py:44-94. -/
def neutralH3D : Lister K := fun type c => ifListed type <|
  ret [tup [19 / 2, -19 / 2, 0] [-2, 0, 0] 2 (0 ||| trajFlag : Nat) c,
    tup [19 / 2, 19 / 2, 19 / 2] [-2, -2, -2] 3 (0 ||| trajFlag : Nat) (c + 1 : Nat)] (c + 2)

/-- `plasma_electrons` of UserParticles_H_He_e.py:61-119: fixed identities, counter unchanged. -/
def plasmaElectrons : Lister K := fun type c => ifListed type <|
  ret [tup [0, 1 / 100, 2 / 100] [3000, 2000, 1000] 1 (0 ||| trajFlag : Nat) 0,
    tup [0, 0, -(2 / 100)] [0, 0, -1000] 2 0 1] c

/-- `H_plus` of UserParticles_H_He_e.py:123-176: fixed identities, counter unchanged; line 161 sets
`bitflags1 = 0b01`. -/
def hPlus : Lister K := fun type c => ifListed type <|
  ret [tup [0, 1 / 100000, 2 / 100000] [3 / 10, 2 / 10, 1 / 10] 3 (0 ||| trajFlag : Nat) 2,
    tup [-0, -(1 / 100000), -(2 / 100000)] [-(3 / 10), -(2 / 10), -(1 / 10)] 4 0b01 3] c

/-- `one_electron` of UserParticles_H_He_e.py:178-207. -/
def oneElectron : Lister K := fun type c => ifListed type <|
  ret [tup [0, 1 / 100, 2 / 100] [3000, 2000, 1000] 1 (0 ||| trajFlag : Nat) c] (c + 1)

/-- The float fields of a record get an entry of the tuple; an int is converted. -/
def asReal : Entry K → K
  | .real x => x
  | .int n => n

/-- The int32 fields of a record.  (NumPy truncates a float; this does not occur in the sample lists and
is modelled as an error.) -/
def asInt : Entry K → Except Err Int
  | .int n => .ok (wrap32 n)
  | .real _ => .error .type

/-- Storing the tuple of a particle as a record with `dim` coordinates (SegmentedArrayPair_Module.py:132
with the dtype of Particle_Module.py:252-278): NumPy wants as many entries as the record has fields,
`3 dim` coordinates, previous coordinates and velocities, and five others (ValueError). -/
def record (dim : Nat) (t : Tup K) : Except Err (Rec K) :=
  match t.drop (3 * dim) with
  | [w, f, c, i, n] => do
    let f ← asInt f
    let c ← asInt c
    let i ← asInt i
    let n ← asInt n
    return ⟨(t.take dim).map asReal, ((t.drop dim).take dim).map asReal, ((t.drop (2 * dim)).take dim).map asReal,
      asReal w, f.toNat, c, i, n⟩
  | _ => .error .value

/-- The body of the loop of `create_from_list` (Particle_Module.py:623-641) with a list of tuples: the
tuple is stored as a record, then as in `listOne`. -/
def tupOne {γ φ δ : Type} (env : Env K γ φ δ) (dim : Nat) (list : List (Tup K)) (st : St K γ δ) (i : Nat) :
    Except Err (St K γ δ) := do
  let t ← pyGet list i
  let r ← record dim t
  listOne env [r] st 0

/-- `create_from_list` (Particle_Module.py:597-643) with one of the functions above. -/
def createFromTups {γ φ δ : Type} (env : Env K γ φ δ) (dim : Nat) (l : Lister K) (st : St K γ δ) :
    Except Err (St K γ δ) := do
  let (number, list, ctr') ← l "listed" st.ctr
  (List.range number).foldlM (tupOne env dim list) { st with ctr := ctr' }

end

end Dt.UserLists
