import Verif.Model.TrajLoop
import Verif.Spec.ListMachine
import Verif.Spec.Pass

/-!
# Specification of recorded trajectories: every particle has a diary

A species is a list of particles and a function `log` giving for every identity what has been noted
about that particle so far.  There are no indices, no data arrays, and no lists of trajectories except
the identities `owner` in the order in which their trajectories were created.
-/

namespace Dt.Spec
open TrajLoop (Cfg Motion Op)
variable {τ α δ T U : Type}

/-- Why a program ends early, or leaves the scope of the specification. -/
inductive TFault where
  | raises (e : Err)
  /-- a species that has lost all its particles in one pass is used again (see C14) -/
  | allLost
  /-- a scheduled point is due for a particle whose data array is full (see C19) -/
  | full
  /-- a particle is created with the identity of another one -/
  | sameId
  /-- a source makes a particle with a trajectory after the container has been read (see C62) -/
  | stale
  deriving DecidableEq, Repr

/-- A species. -/
structure Diary (U α δ : Type) where
  charged : Bool
  st : LState α
  lost : Bool
  owner : List U
  log : U → List δ

/-- All species, the side state, and the step of the last `record_trajectory_data`. -/
structure Diaries (τ U α δ : Type) where
  pops : List (Diary U α δ)
  side : τ
  last : Option Int

/-- The final point of a deleted particle: with the step and time of the move, or with those of the
following step if this step has already been recorded. -/
def finalPoint [Add T] (last : Option Int) (m : Motion τ α δ T) (p : α) : δ :=
  if some m.step = last then m.mkFinal (m.step + 1) (m.time + m.dt) p else m.mkFinal m.step m.time p

/-- What is noted about a particle `p` that moves to `p'` by way of the facet crossings `evs`. -/
def notes [Add T] (c : Cfg α δ) (last : Option Int) (m : Motion τ α δ T) (p p' : α)
    (evs : List (α × T)) : List δ :=
  if c.isTraj p then
    evs.map (fun ev => m.mkCross m.step ev.2 ev.1) ++
      (if c.isDel p' then [finalPoint last m p'] else [])
  else []

/-- The motion of one particle, and the notes in its diary. -/
def diaryAdv [Add T] [DecidableEq U] (c : Cfg α δ) (uid : α → U) (last : Option Int)
    (m : Motion τ α δ T) (k : Nat) :
    τ × (U → List δ) → Int → Int → Bool → α → Except Err ((τ × (U → List δ)) × α × Bool) :=
  fun (st, log) _ _ _ p =>
    match m.core k st p with
    | .error e => .error e
    | .ok (st', p', evs) =>
      .ok ((st', fun u => if u = uid p then log u ++ notes c last m p p' evs else log u), p',
        !c.isDel p')

/-- A mover pass over one species. -/
def Diary.move [Add T] [DecidableEq U] (c : Cfg α δ) (uid : α → U) (sl : Nat) (last : Option Int)
    (m : Motion τ α δ T) (k : Nat) (d : Diary U α δ) (side : τ) :
    Except TFault (Diary U α δ × τ) :=
  if d.st.items = [] then .ok (d, side)
  else
    match pass (diaryAdv c uid last m k) (side, d.log) 0 0 d.st.items with
    | .error e => .error (.raises e)
    | .ok ((side', log'), ys) =>
      .ok ({ d with
        st := ⟨ys, decide (ys.length % sl = 0 ∧
          lastFlag (diaryAdv c uid last m k) (side, d.log) 0 0 d.st.items = some false)⟩
        lost := ys.isEmpty
        log := log' }, side')

/-- The species with the given kind of charge are moved in order. -/
def moveDiaries [Add T] [DecidableEq U] (c : Cfg α δ) (uid : α → U) (sl : Nat) (last : Option Int)
    (charged : Bool) (m : Motion τ α δ T) :
    Nat → List (Diary U α δ) → τ → Except TFault (List (Diary U α δ) × τ)
  | _, [], side => .ok ([], side)
  | k, d :: ds, side =>
    match (if d.charged = charged then d.move c uid sl last m k side else .ok (d, side)) with
    | .error f => .error f
    | .ok (d', side') =>
      match moveDiaries c uid sl last charged m (k + 1) ds side' with
      | .error f => .error f
      | .ok (ds', side'') => .ok (d' :: ds', side'')

/-- A note in the diary of every particle with a trajectory. -/
def Diary.note [DecidableEq U] (c : Cfg α δ) (uid : α → U) (mkC mkN : α → δ) (d : Diary U α δ) :
    Diary U α δ :=
  { d with log := fun u => d.log u ++
      ((d.st.items.filter (fun p => c.isTraj p ∧ uid p = u)).map (if d.charged then mkC else mkN)) }

/-- Every particle with a trajectory has room for another note. -/
def Diary.room (c : Cfg α δ) (uid : α → U) (d : Diary U α δ) : Bool :=
  d.st.items.all (fun p => !c.isTraj p || decide ((d.log (uid p)).length < c.np))

/-- A new particle, and if it has the flag a new diary. -/
def Diary.create [DecidableEq U] (c : Cfg α δ) (uid : α → U) (sl : Nat) (p : α)
    (first : Option (α → α → δ)) (d : Diary U α δ) : Except TFault (Diary U α δ) :=
  if d.lost then .error .allLost
  else if d.st.stale = true ∧ d.st.items ≠ [] ∧ d.st.items.length % sl = 0 then
    .error (.raises .assertion)
  else if uid p ∈ d.st.items.map uid ∨ uid p ∈ d.owner then .error .sameId
  else if c.isTraj p = true ∧ first.isSome = true ∧ d.st.stale = true then .error .stale
  else .ok { d with
    st := ⟨d.st.items ++ [p], d.st.stale⟩
    owner := if c.isTraj p then d.owner ++ [uid p] else d.owner
    log := fun u => if u = uid p then
        (if c.isTraj p then (match first with | none => [] | some pt => [pt p p]) else [])
      else d.log u }

/-- The particles are looked at. -/
def Diary.look (d : Diary U α δ) : Except TFault (Diary U α δ) :=
  if d.lost then .error .allLost
  else .ok { d with st := ⟨d.st.items, decide (d.st.items ≠ [])⟩ }

/-- Do something with species number `k`. -/
def onDiary (f : Diary U α δ → Except TFault (Diary U α δ)) :
    Nat → List (Diary U α δ) → Except TFault (List (Diary U α δ))
  | _, [] => .error (.raises .key)
  | 0, d :: ds =>
    match f d with
    | .error e => .error e
    | .ok d' => .ok (d' :: ds)
  | k + 1, d :: ds =>
    match onDiary f k ds with
    | .error e => .error e
    | .ok ds' => .ok (d :: ds')

/-- One call. -/
def Diaries.exec [Add T] [DecidableEq U] (c : Cfg α δ) (uid : α → U) (sl : Nat)
    (i : Diaries τ U α δ) : Op τ α δ T → Except TFault (Diaries τ U α δ)
  | .advance charged m =>
    match moveDiaries c uid sl i.last charged m 0 i.pops i.side with
    | .error f => .error f
    | .ok (ds, side') => .ok { i with pops := ds, side := side' }
  | .record step mkC mkN =>
    if i.last = some step then .ok i
    else if i.pops.all (Diary.room c uid) then
      .ok { i with pops := i.pops.map (Diary.note c uid mkC mkN), last := some step }
    else .error .full
  | .create k p first =>
    match onDiary (Diary.create c uid sl p first) k i.pops with
    | .error f => .error f
    | .ok ds => .ok { i with pops := ds }
  | .look k =>
    match onDiary Diary.look k i.pops with
    | .error f => .error f
    | .ok ds => .ok { i with pops := ds }
  | .other f =>
    match f i.side with
    | .error e => .error (.raises e)
    | .ok side' => .ok { i with side := side' }

/-- A program. -/
def Diaries.run [Add T] [DecidableEq U] (c : Cfg α δ) (uid : α → U) (sl : Nat) :
    Diaries τ U α δ → List (Op τ α δ T) → Except TFault (Diaries τ U α δ)
  | i, [] => .ok i
  | i, op :: ops =>
    match i.exec c uid sl op with
    | .error f => .error f
    | .ok i' => Diaries.run c uid sl i' ops

end Dt.Spec
