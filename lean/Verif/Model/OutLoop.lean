import Verif.Model.SAP

/-!
# The loop over the "out" segments with a body

Most functions of `Particle_Module.py` visit the stored particles with

    (npSeg, pseg) = sap.init_out_loop()
    while isinstance(pseg, np_m.ndarray):
        <body>
        (npSeg, pseg) = sap.get_next_segment("out")

(e.g. lines 736-739, 797-806, 826-846, 917-928, 3205-3222).
-/

namespace Dt
namespace SAP
variable {σ α : Type}

/-- The `while` loop; the body gets the container, the segment and `npSeg`.
`fuel` bounds the number of segments. -/
def outLoopAux (body : SAP α → View → Int → σ → Except Err (SAP α × σ)) :
    Nat → SAP α → Int → Option View → σ → Except Err (SAP α × σ)
  | _, s, _, none, st => .ok (s, st)
  | 0, _, _, some _, _ => .error .fuel
  | fuel + 1, s, n, some v, st => do
    let (s1, st1) ← body s v n st
    let (s2, (n2, v2)) := s1.getNextSegment .Out
    outLoopAux body fuel s2 n2 v2 st1

/-- The whole loop. -/
def outLoop (body : SAP α → View → Int → σ → Except Err (SAP α × σ)) (s : SAP α) (st : σ) :
    Except Err (SAP α × σ) :=
  let (s1, (n, v)) := s.initOutLoop
  outLoopAux body (s.outA.nseg + 1) s1 n v st

/-- A body that only reads the particles of the segment, `pseg` (which is
`segment[0:npSeg]`, SegmentedArrayPair_Module.py:283, 386). -/
def readBody (f : σ → List α → Except Err σ) : SAP α → View → Int → σ → Except Err (SAP α × σ) :=
  fun s v n st => do
    let ps ← s.viewItems v n
    let st' ← f st ps
    return (s, st')

end SAP
end Dt
