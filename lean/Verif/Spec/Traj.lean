import Verif.Model.Traj

/-!
# What a user sees of the recorded trajectories
-/

namespace Dt
namespace TrajSp
variable {δ : Type}

/-- The recorded points of trajectory `j`: the first `trajectory_length[j]`
entries of its data array (this is what plotting and writing use,
RecordedData_Module.py:490-500, 640-660). -/
def points (t : TrajSp δ) (j : Nat) : List δ :=
  match t.data[j]?, t.len[j]? with
  | some row, some l => row.take l
  | _, _ => []

/-- One modelled call that changes the trajectory lists of a species whose data
arrays have length `npoints`. -/
inductive Step (npoints : Nat) : TrajSp δ → TrajSp δ → Prop
  | create {t} (junk : δ) (pindex : Int) : Step npoints t (create npoints junk t pindex)
  | datum {t t'} {full : Int} {d : δ}
      (e : recordDatum npoints t full d = .ok t') : Step npoints t t'
  | update {t t'} {i o : Int} (e : update t i o = .ok t') : Step npoints t t'
  | remove {T : Type} [Add T] {t t'} {last : Option Int} {full step : Int} {time dt : T}
      {mk : Int → T → δ}
      (e : remove npoints last t full step time dt mk = .ok t') : Step npoints t t'
  | charged {α : Type} {t t'} {s : SAP α} {mk : α → δ} {early : Bool}
      (e : Traj.chargedLoop npoints s mk t.idx.length 0 t = .ok (t', early)) : Step npoints t t'
  | neutral {α : Type} {t t'} {s : SAP α} {mk : α → δ}
      (e : Traj.neutralLoop s mk t.idx.length 0 t = .ok t') : Step npoints t t'

/-- Any history of such calls. -/
inductive Run (npoints : Nat) : TrajSp δ → TrajSp δ → Prop
  | refl (t) : Run npoints t t
  | tail {t t' t''} (h : Run npoints t t') (s : Step npoints t' t'') : Run npoints t t''

/-- Trajectory lists that the code can produce for one species. -/
def Reach (npoints : Nat) (t : TrajSp δ) : Prop := Run npoints empty t

/-- Position of `u` in a list of identities, -1 (= NO_PINDEX) if absent. -/
def posOf {U : Type} [DecidableEq U] (us : List U) (u : U) : Int :=
  if u ∈ us then (us.idxOf u : Nat) else -1

/-- The index list is right: entry `j` is the storage position of the particle
with identity `owner[j]` in the population `xs`, or NO_PINDEX if that particle
is gone. -/
def Follows {U α : Type} [DecidableEq U] (uid : α → U) (owner : List U) (t : TrajSp δ)
    (xs : List α) : Prop :=
  t.idx = owner.map (posOf (xs.map uid))

end TrajSp
end Dt
