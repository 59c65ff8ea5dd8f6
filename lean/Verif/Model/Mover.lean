import Verif.Model.SAP

/-!
# Model of the storage side of the Python particle movers

The three mesh movers of `Particle_Module.py`

* `move_particles_in_electrostatic_field` (1016-1388, per-species body 1057-1381),
* `advance_charged_species_in_E_field` (1416-1853),
* `advance_neutral_species` (1880-2145)

run the same loop over the "in" and "out" arrays of a species and differ only
in what happens to a single particle.  `meshPass` is that loop; the
per-particle work is the argument `adv`:

`adv st iIn iOut indexChange p` receives the side state (trajectories,
boundary-condition counters, ...), the full storage indices that
`sap.get_full_indices(ipIn, ipOut)` returns at that moment, the flag
`indexChange`, and the record `psegIn[ipIn]`.  It returns the new side state, the
record left in `psegOut[ipOut]`, and whether its DELETE_FLAG is clear; or it
raises.

Simplifications
* The field values for a segment are computed by the source once per segment;
  they depend on the "in" particle only and are part of `adv` here.
* The record is written to the "out" slot after `adv` (the source copies it
  there first and updates it in place; nothing reads the slot in between
  except through that reference).
* `self.SEGMENT_LENGTH` is the segment length the pair was constructed with
  (Particle_Module.py:137, 346-373).

`uniformPass` is `advance_charged_species_in_uniform_fields` (2200-2289), which
has a different skip rule and a different final count.
-/

namespace Dt

/-- Local variables of a mover pass: the container, `psegOut`, `ipOut`,
`particleCount`, `indexChange` (Particle_Module.py:1475-1480), and the side
state. -/
structure Pass (σ α : Type) where
  s : SAP α
  vout : View
  ipOut : Nat
  count : Nat
  indexChange : Bool
  st : σ

/-- What happens to one particle; see the file comment. -/
abbrev Adv (σ α : Type) := σ → Int → Int → Bool → α → Except Err (σ × α × Bool)

namespace Mover
variable {σ α : Type}

/-- "Get the next out segment if the current one is full"
(Particle_Module.py:1569-1571; also 1160-1162, 1957-1959, 2252-2254). -/
def nextOut (ps : Pass σ α) : Except Err (Pass σ α) :=
  if ps.ipOut = ps.s.sl then do
    let (s', v) ← ps.s.getNextOutSegment
    return { ps with s := s', vout := v, ipOut := 0 }
  else .ok ps

/-- "Check if we've reached the end of this segment"
(Particle_Module.py:1831-1832; also 1366-1367, 2124-2125, 2277-2278). -/
def countFull (ps : Pass σ α) : Pass σ α :=
  if ps.ipOut = ps.s.sl then { ps with count := ps.count + ps.s.sl } else ps

/-- The body of the loop on particles (Particle_Module.py:1554-1832;
also 1151-1367, 1948-2125). -/
def moveOne (adv : Adv σ α) (vin : View) (ipIn : Nat) (ps0 : Pass σ α) :
    Except Err (Pass σ α) := do
  let ps ← nextOut ps0
  let p ← ps.s.viewGet vin ipIn
  let (iIn, iOut) := ps.s.getFullIndices ipIn ps.ipOut
  let (st', p', keep) ← adv ps.st iIn iOut ps.indexChange p
  let s' ← ps.s.viewSet ps.vout ps.ipOut p'
  if keep then
    return countFull { ps with s := s', st := st', ipOut := ps.ipOut + 1 }
  else
    return countFull { ps with s := s', st := st', indexChange := true }

/-- `for ipIn in range(ip, ip+k)`: the source starts at 0 with `k = npSeg`
(Particle_Module.py:1554). -/
def moveItems (adv : Adv σ α) (vin : View) : Nat → Nat → Pass σ α → Except Err (Pass σ α)
  | 0, _, ps => .ok ps
  | k + 1, ip, ps => do
    let ps' ← moveOne adv vin ip ps
    moveItems adv vin k (ip + 1) ps'

/-- The loop on "in" segments (Particle_Module.py:1484-1836).  `fuel` bounds
the number of segments. -/
def moveSegs (adv : Adv σ α) : Nat → Int → Option View → Pass σ α → Except Err (Pass σ α)
  | _, _, none, ps => .ok ps
  | 0, _, some _, _ => .error .fuel
  | fuel + 1, n, some vin, ps => do
    let ps1 ← moveItems adv vin n.toNat 0 ps
    let (s', (n', v')) := ps1.s.getNextSegment .In
    moveSegs adv fuel n' v' { ps1 with s := s' }

/-- A complete pass of a mesh mover over one species, from `init_inout_loop`
(1475) to `set_number_of_items` (1847). -/
def meshPass (adv : Adv σ α) (s : SAP α) (st : σ) : Except Err (SAP α × σ) :=
  match s.initInoutLoop with
  | (s1, (n, some (vin, vout))) => do
    let ps ← moveSegs adv (s.outA.nseg + 1) n (some vin)
      { s := s1, vout := vout, ipOut := 0, count := 0, indexChange := false, st := st }
    let c := if ps.ipOut ≠ ps.s.sl then ps.count + ps.ipOut else ps.count
    return (ps.s.setNumberOfItems .Out c, ps.st)
  | (s1, (_, none)) => .ok (s1.setNumberOfItems .Out 0, st)

/-- The species-level guard of the callers: a species without particles is
skipped (Particle_Module.py:1068, 1402, 1866). -/
def meshStep (adv : Adv σ α) (s : SAP α) (st : σ) : Except Err (SAP α × σ) :=
  if s.getNumberOfItems = 0 then .ok (s, st) else meshPass adv s st

/-- Consecutive time steps of one species (the main loop of
examples/sphere1D/sphere1D.py:1274-1375 calls the mover once per step). -/
def meshSteps : List (Adv σ α) → SAP α → σ → Except Err (SAP α × σ)
  | [], s, st => .ok (s, st)
  | adv :: advs, s, st => do
    let (s', st') ← meshStep adv s st
    meshSteps advs s' st'

/-! ### The uniform-field mover -/

/-- The body of the particle loop of `advance_charged_species_in_uniform_fields`
(Particle_Module.py:2243-2278): particles whose DELETE_FLAG is already set are
skipped before anything else. -/
def uniformOne (dead : α → Bool) (adv : α → α) (vin : View) (ipIn : Nat) (ps0 : Pass σ α) :
    Except Err (Pass σ α) := do
  let p ← ps0.s.viewGet vin ipIn
  if dead p then return ps0
  else do
    let ps ← nextOut ps0
    let s' ← ps.s.viewSet ps.vout ps.ipOut (adv p)
    return countFull { ps with s := s', ipOut := ps.ipOut + 1 }

/-- The particle loop (Particle_Module.py:2243-2278). -/
def uniformItems (dead : α → Bool) (adv : α → α) (vin : View) :
    Nat → Nat → Pass σ α → Except Err (Pass σ α)
  | 0, _, ps => .ok ps
  | k + 1, ip, ps => do
    let ps' ← uniformOne dead adv vin ip ps
    uniformItems dead adv vin k (ip + 1) ps'

/-- The segment loop (Particle_Module.py:2235-2282). -/
def uniformSegs (dead : α → Bool) (adv : α → α) :
    Nat → Int → Option View → Pass σ α → Except Err (Pass σ α)
  | _, _, none, ps => .ok ps
  | 0, _, some _, _ => .error .fuel
  | fuel + 1, n, some vin, ps => do
    let ps1 ← uniformItems dead adv vin n.toNat 0 ps
    let (s', (n', v')) := ps1.s.getNextSegment .In
    uniformSegs dead adv fuel n' v' { ps1 with s := s' }

/-- `advance_charged_species_in_uniform_fields` (Particle_Module.py:2200-2289):
the final `particleCount += ipOut` is unconditional (2285). -/
def uniformPass (dead : α → Bool) (adv : α → α) (s : SAP α) : Except Err (SAP α) :=
  match s.initInoutLoop with
  | (s1, (n, some (vin, vout))) => do
    let ps ← uniformSegs dead adv (s.outA.nseg + 1) n (some vin)
      { s := s1, vout := vout, ipOut := 0, count := 0, indexChange := false, st := () }
    return ps.s.setNumberOfItems .Out ((ps.count + ps.ipOut : Nat) : Int)
  | (s1, (_, none)) => .ok (s1.setNumberOfItems .Out 0)

end Mover
end Dt
