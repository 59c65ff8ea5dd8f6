import Verif.Props.Geometry
import Verif.Lemmas.TrackInv
import Verif.Model.BC

/-!
# Properties of the motion of one particle on the mesh (C22, C25 to C29, C31)

The theorems are about `moveCharged` (one particle in
`advance_charged_species_in_E_field` and `move_particles_in_electrostatic_field`) and
`moveNeutral` (one particle in `advance_neutral_species`).
-/

set_option linter.unusedSectionVars false

namespace Dt
variable {K : Type} [Field K] [LinearOrder K] [IsStrictOrderedRing K] {g p : Nat} {τ ρ : Type}

/-! ## Concrete data: three cells on a line -/

/-- Cells [0,1], [1,2], [2,3]; the end points are marked 1 and 2. -/
def demoLine : Mesh ℚ 1 := lineMesh (fun i => (i : ℚ)) 3 (fun F => if F = 0 then 1 else if F = 3 then 2 else 0)

theorem demoLine_conforming : demoLine.Conforming :=
  lineMesh_conforming (fun i _ => by push_cast; linarith) (by decide) (by decide)

/-- A particle at `x` in cell `i` with velocity `u`. -/
def demoPart (x u : ℚ) (i : Int) (traj : Bool) : Part ℚ 1 Nat := ⟨![x], ![x], ![u], i, false, traj, 0, 7⟩

/-- Reflect at facets marked 1, delete at others. -/
def demoBC : Int → Unit → BCall ℚ 1 1 Nat → Except Err (Unit × Part ℚ 1 Nat) :=
  fun v st b => if (v == 1) = true then bcReflect st b else bcAbsorb st b

/-- What the examples look at: position, start point, velocity, cell, deleted (1) or
not (0), crossings, and the recorded crossing times. -/
def demoView (r : Except Err ((Unit × Vec ℚ 1) × Part ℚ 1 Nat × List (Part ℚ 1 Nat × ℚ))) :
    Except Err (List ℚ) :=
  r.map (fun t => [t.2.1.x 0, t.2.1.x0 0, t.2.1.u 0, (t.2.1.cell : ℚ),
    if t.2.1.del then 1 else 0, (t.2.1.crossings : ℚ)] ++ t.2.2.map Prod.snd)

/-- Two cells crossed in one step. -/
example : demoView (moveCharged (le_refl 1) demoLine .charged demoBC 10 5 2 1 false
    (fun _ => none) ((), ![0]) (demoPart (1/2) 1 0 true)) =
    .ok [5/2, 2, 1, 2, 0, 2] := by decide +kernel

/-- Reflection at x = 0 and a crossing into cell 1. -/
example : demoView (moveCharged (le_refl 1) demoLine .charged demoBC 10 5 2 1 false
    (fun _ => none) ((), ![0]) (demoPart (1/2) (-1) 0 true)) =
    .ok [3/2, 1, 1, 1, 0, 2, 7/2] := by decide +kernel

/-- Loss at x = 3. -/
example : demoView (moveCharged (le_refl 1) demoLine .charged demoBC 10 5 2 1 false
    (fun _ => some ![1]) ((), ![0]) (demoPart (1/2) 1 0 true)) =
    .ok [9/2, 3, 2, -1, 1, 3, 17/4] := by decide +kernel

/-! ## C22 -/

/-- The loop variables: elapsed plus remaining time is the step. -/
theorem track_times {h : g ≤ p} {M : Mesh K g} {v : Variant}
    {bc : Int → τ → BCall K g p ρ → Except Err (τ × Part K p ρ)} {n : Nat} {time dt : K} {st : τ}
    {dxS : Vec K p} {q : Part K p ρ} {s : Trk K p τ ρ} (hdt : 0 ≤ dt)
    (e : track h M v bc n (startTrk time dt st dxS q) = .ok s) : TimeInv time dt s :=
  (track_induct (TimeInv time dt) (fun _ _ _ hs _ hc => hs.step hc) n _ _
    ⟨by simp [startTrk], hdt, le_refl _, by simp [startTrk], by simp [startTrk]⟩ e).1

/-- C22.  The crossing times recorded for a particle of a charged species lie in the step
and do not decrease. -/
theorem C22_times_charged {h : g ≤ p} {M : Mesh K g} {v : Variant}
    {bc : Int → τ → BCall K g p ρ → Except Err (τ × Part K p ρ)} {n : Nat} {time dt qmdt : K}
    {accel : Bool} {E : Part K p ρ → Option (Vec K p)} {st st' : τ × Vec K p} {q q' : Part K p ρ}
    {evs : List (Part K p ρ × K)} (hdt : 0 ≤ dt)
    (e : moveCharged h M v bc n time dt qmdt accel E st q = .ok (st', q', evs)) :
    (evs.map Prod.snd).Pairwise (· ≤ ·) ∧ ∀ t ∈ evs.map Prod.snd, time - dt ≤ t ∧ t ≤ time := by
  unfold moveCharged at e
  dsimp only at e
  cases ht : track h M v bc n (startTrk time dt st.1 st.2
    (if accel = true then accelerate qmdt (E q) q else moveBy dt (accelerate qmdt (E q) q))) with
  | error e' => rw [ht] at e; cases e
  | ok s =>
    rw [ht] at e
    simp only [bind, Except.bind, pure, Except.pure, Except.ok.injEq, Prod.mk.injEq] at e
    obtain ⟨-, -, rfl⟩ := e
    have hs := track_times hdt ht
    refine ⟨hs.sorted, fun t ht => ⟨(hs.range t ht).1, ?_⟩⟩
    have h1 := (hs.range t ht).2
    have h2 := hs.sum
    have h3 := hs.rem_nonneg
    linarith

/-- C22, neutral species. -/
theorem C22_times_neutral {h : g ≤ p} {M : Mesh K g} {v : Variant}
    {bc : Int → τ → BCall K g p ρ → Except Err (τ × Part K p ρ)} {n : Nat} {time dt : K}
    {st st' : τ × Vec K p} {q q' : Part K p ρ} {evs : List (Part K p ρ × K)} (hdt : 0 ≤ dt)
    (e : moveNeutral h M v bc n time dt st q = .ok (st', q', evs)) :
    (evs.map Prod.snd).Pairwise (· ≤ ·) ∧ ∀ t ∈ evs.map Prod.snd, time - dt ≤ t ∧ t ≤ time := by
  unfold moveNeutral at e
  dsimp only at e
  cases ht : track h M v bc n (startTrk time dt st.1 st.2 (moveBy dt q)) with
  | error e' => rw [ht] at e; cases e
  | ok s =>
    rw [ht] at e
    simp only [bind, Except.bind, pure, Except.pure, Except.ok.injEq, Prod.mk.injEq] at e
    obtain ⟨-, -, rfl⟩ := e
    have hs := track_times hdt ht
    refine ⟨hs.sorted, fun t ht => ⟨(hs.range t ht).1, ?_⟩⟩
    have h1 := (hs.range t ht).2
    have h2 := hs.sum
    have h3 := hs.rem_nonneg
    linarith

theorem track_orbit {h : g ≤ p} {M : Mesh K g} {v : Variant}
    {bc : Int → τ → BCall K g p ρ → Except Err (τ × Part K p ρ)}
    (hbc : KeepsOrbit (v.sharesDx = true) bc) {n : Nat} {time dt : K} {st : τ}
    {dxS : Vec K p} {q : Part K p ρ} {s : Trk K p τ ρ}
    (e : track h M v bc n (startTrk time dt st dxS (moveBy dt q)) = .ok s) :
    OnOrbit s ∧ s.tStart + s.rem = time ∧
      ∀ ev ∈ s.events, ev.1.x - ev.1.x0 = (time - ev.2) • ev.1.u :=
  (track_induct (fun s => OnOrbit s ∧ s.tStart + s.rem = time ∧
      ∀ ev ∈ s.events, ev.1.x - ev.1.x0 = (time - ev.2) • ev.1.u)
    (fun _ _ _ hs _ hc => orbit_step hbc hs hc) n _ _
    ⟨by simp [OnOrbit, startTrk, moveBy], by simp [startTrk], by simp [startTrk]⟩ e).1

/-- C22.  The time recorded at a crossing is the time at which the particle is at the
recorded crossing point: the move still to be made from there is the time left in the
step times the velocity.  This holds for callbacks with that property: those that
absorb, do nothing or reflect. -/
theorem C22_time_is_exact {h : g ≤ p} {M : Mesh K g} {v : Variant}
    {bc : Int → τ → BCall K g p ρ → Except Err (τ × Part K p ρ)}
    (hbc : KeepsOrbit (v.sharesDx = true) bc) {n : Nat} {time dt qmdt : K}
    {E : Part K p ρ → Option (Vec K p)} {st st' : τ × Vec K p} {q q' : Part K p ρ}
    {evs : List (Part K p ρ × K)}
    (e : moveCharged h M v bc n time dt qmdt false E st q = .ok (st', q', evs) ∨
      moveNeutral h M v bc n time dt st q = .ok (st', q', evs)) :
    ∀ ev ∈ evs, ev.1.x - ev.1.x0 = (time - ev.2) • ev.1.u := by
  rcases e with e | e
  · unfold moveCharged at e
    simp only [Bool.false_eq_true, if_false] at e
    cases ht : track h M v bc n (startTrk time dt st.1 st.2
      (moveBy dt (accelerate qmdt (E q) q))) with
    | error e' => rw [ht] at e; cases e
    | ok s =>
      rw [ht] at e
      simp only [bind, Except.bind, pure, Except.pure, Except.ok.injEq, Prod.mk.injEq] at e
      obtain ⟨-, -, rfl⟩ := e
      exact (track_orbit hbc ht).2.2
  · unfold moveNeutral at e
    cases ht : track h M v bc n (startTrk time dt st.1 st.2 (moveBy dt q)) with
    | error e' => rw [ht] at e; cases e
    | ok s =>
      rw [ht] at e
      simp only [bind, Except.bind, pure, Except.pure, Except.ok.injEq, Prod.mk.injEq] at e
      obtain ⟨-, -, rfl⟩ := e
      exact (track_orbit hbc ht).2.2

/-! ## C29: the callbacks of the distribution -/

omit [LinearOrder K] [IsStrictOrderedRing K] in
theorem dot_refl (n w : Vec K g) : dot n (w - (2 * dot n w) • n) = dot n w * (1 - 2 * dot n n) := by
  rw [dot_sub, dot_smul]; ring

omit [LinearOrder K] [IsStrictOrderedRing K] in
theorem dot_sub_left (a b c : Vec K g) : dot (a - b) c = dot a c - dot b c := by
  rw [dot_comm, dot_sub, dot_comm c a, dot_comm c b]

omit [LinearOrder K] [IsStrictOrderedRing K] in
theorem dot_smul_left (t : K) (a c : Vec K g) : dot (t • a) c = t * dot a c := by
  rw [dot_comm, dot_smul, dot_comm c a]

/-- C29.  The reflecting callback is specular.  With a unit normal, and called with the
move vector of which the fraction `1 - frac` lies outside: the new end point is the
mirror image of the old one in the plane through the crossing point (the same distance
from it, on the other side, displaced along the normal only); the normal velocity is
reversed, the tangential velocity and the speed are unchanged; nothing else of the
record is touched. -/
theorem C29_specular {st : τ} {b : BCall K g g ρ} {n : Vec K g} (hb : b.normal = some n)
    (hn : dot n n = 1) (hdx : b.part.x - b.part.x0 = (1 - b.frac) • b.dx) :
    ∃ q', bcReflect st b = .ok (st, q') ∧
      dot n (q'.x - b.part.x0) = - dot n (b.part.x - b.part.x0) ∧
      (∀ w, dot n w = 0 → dot w (q'.x - b.part.x0) = dot w (b.part.x - b.part.x0)) ∧
      dot (q'.x - b.part.x0) (q'.x - b.part.x0) = dot (b.part.x - b.part.x0) (b.part.x - b.part.x0) ∧
      dot n q'.u = - dot n b.part.u ∧
      (∀ w, dot n w = 0 → dot w q'.u = dot w b.part.u) ∧
      dot q'.u q'.u = dot b.part.u b.part.u ∧
      q'.x0 = b.part.x0 ∧ q'.cell = b.part.cell ∧ q'.del = b.part.del ∧ q'.traj = b.part.traj ∧
      q'.crossings = b.part.crossings ∧ q'.rest = b.part.rest := by
  unfold bcReflect
  rw [hb]
  simp only
  refine ⟨_, rfl, ?_⟩
  simp only
  have hx : b.part.x - (2 * dot n ((1 - b.frac) • b.dx)) • n - b.part.x0 =
      (b.part.x - b.part.x0) - (2 * dot n (b.part.x - b.part.x0)) • n := by
    rw [← hdx]
    funext i
    simp only [Pi.sub_apply, Pi.smul_apply, smul_eq_mul]
    ring
  rw [hx]
  generalize b.part.x - b.part.x0 = d
  have hperp : ∀ w y : Vec K g, dot n w = 0 → dot w (y - (2 * dot n y) • n) = dot w y := by
    intro w y hw
    rw [dot_sub, dot_smul, dot_comm w n, hw]; ring
  have hlen : ∀ y : Vec K g, dot (y - (2 * dot n y) • n) (y - (2 * dot n y) • n) = dot y y := by
    intro y
    rw [dot_sub, dot_smul, dot_sub_left, dot_smul_left, dot_sub_left, dot_smul_left, hn, dot_comm y n]
    ring
  refine ⟨by rw [dot_refl, hn]; ring, fun w hw => hperp w d hw, hlen d,
    by rw [dot_refl, hn]; ring, fun w hw => hperp w _ hw, hlen _, ?_⟩
  simp

/-- C29.  Reflecting the velocity twice restores it. -/
theorem C29_involution {st : τ} {b b' : BCall K g g ρ} {n : Vec K g} {q' : Part K g ρ}
    (hb : b.normal = some n) (hb' : b'.normal = some n) (hn : dot n n = 1)
    (e : bcReflect st b = .ok (st, q')) (hp : b'.part = q') :
    ∃ q'', bcReflect st b' = .ok (st, q'') ∧ q''.u = b.part.u := by
  unfold bcReflect at e ⊢
  rw [hb] at e
  rw [hb']
  simp only [Except.ok.injEq, Prod.mk.injEq, true_and] at e
  refine ⟨_, rfl, ?_⟩
  simp only
  rw [hp, ← e]
  simp only
  rw [dot_refl, hn]
  funext i
  simp only [Pi.sub_apply, Pi.smul_apply, smul_eq_mul]
  ring

/-- The end point of a reflected particle that had crossed outwards is on the inner side
of the facet. -/
theorem C29_inner_side {st : τ} {b : BCall K g g ρ} {n : Vec K g} {q' : Part K g ρ}
    (hb : b.normal = some n) (hn : dot n n = 1)
    (hdx : b.part.x - b.part.x0 = (1 - b.frac) • b.dx) (hout : 0 < dot n (b.part.x - b.part.x0))
    (e : bcReflect st b = .ok (st, q')) : dot n (q'.x - q'.x0) < 0 := by
  obtain ⟨q'', e', h1, -, -, -, -, -, h2, -⟩ := C29_specular (st := st) hb hn hdx
  rw [e] at e'
  cases e'
  rw [h2, h1]
  linarith

/-- Non-vacuity of C29: a reflection at the plane x = 1 in two dimensions. -/
example : ((bcReflect () (⟨⟨![3/2, 1], ![1, 1/2], ![2, 2], 4, false, true, 0, 7⟩, 3, 1/2,
      some ![1, 0], ![1, 1]⟩ : BCall ℚ 2 2 Nat)).map
      (fun r => ([r.2.x 0, r.2.x 1], [r.2.u 0, r.2.u 1]))) =
    .ok ([1/2, 1], [-2, 2]) := by decide +kernel

omit [LinearOrder K] [IsStrictOrderedRing K] in
theorem proj_self (x : Vec K g) : proj (le_refl g) x = x := rfl

/-- Meshes with unit normals (`cell.normal(facet)` of Dolfin). -/
def Mesh.UnitNormals (M : Mesh K g) : Prop :=
  ∀ (ci : Int) (c : Cell K g) (k : Nat) (n : Vec K g), M.cell ci = some c →
    c.normals[k]? = some n → dot n n = 1

/-- The absorbing callback is one the tracking copes with. -/
theorem absorb_good (h : g ≤ p) (M : Mesh K g) (fresh : Prop) :
    GoodBC h M fresh (fun _ (st : τ) (b : BCall K g p ρ) => bcAbsorb st b) := by
  refine ⟨fun st call n _ _ => ⟨_, rfl⟩, ?_, ?_, ?_⟩
  · intro st call st' q' e; cases e; rfl
  · intro st call st' q' e _; cases e; rfl
  · intro st call st' q' n e _ _ _ _; cases e; exact .inl rfl

/-- So are callbacks that reflect at some tags and absorb at the others, in the movers that
keep `self.dx` current, if the mesh has unit normals and no interior facet has a
reflecting tag. -/
theorem reflect_good (M : Mesh K g) (hM : M.UnitNormals) (R : Int → Bool)
    (hR : ∀ F, M.Interior F → R (M.marker F) = false) :
    GoodBC (le_refl g) M True (fun v (st : τ) (b : BCall K g g ρ) =>
      if R v = true then bcReflect st b else bcAbsorb st b) := by
  refine ⟨?_, ?_, ?_, ?_⟩
  · intro st call n hn _
    split
    · unfold bcReflect; rw [hn]; exact ⟨_, rfl⟩
    · exact ⟨_, rfl⟩
  · intro st call st' q' e

    split at e
    · unfold bcReflect at e
      split at e
      · cases e
      · cases e; rfl
    · cases e; rfl
  · intro st call st' q' e hi
    simp only [hR _ hi] at e
    cases e; rfl
  · intro st call st' q' n e hB hn hf hpos

    split at e
    · right
      obtain ⟨ci, c, k, h1, h2, h3, h4⟩ := hB
      have hst : st' = st := by
        unfold bcReflect at e
        rw [hn] at e
        cases e; rfl
      subst hst
      exact (C29_inner_side hn (hM ci c k n h1 h4) (hf trivial) hpos e).le
    · cases e; exact .inl rfl

/-- Absorbing, doing nothing and reflecting keep the particle on its orbit, the last one
only in the movers that keep `self.dx` current. -/
theorem absorb_orbit (fresh : Prop) :
    KeepsOrbit fresh (fun _ (st : τ) (b : BCall K g p ρ) => bcAbsorb st b) := by
  intro value st call st' q' r e _ hr
  cases e; exact hr

theorem reflect_orbit : KeepsOrbit True (fun _ (st : τ) (b : BCall K g g ρ) => bcReflect st b) := by
  intro value st call st' q' r e hf hr
  have hf := hf trivial
  simp only [bcReflect] at e
  split at e
  · cases e
  · rename_i n hn
    cases e
    simp only
    rw [← hf, hr, dot_smul]
    funext i
    have := congrFun hr i
    simp only [Pi.sub_apply, Pi.smul_apply, smul_eq_mul] at this ⊢
    linear_combination this

/-! ## C25 -/

theorem track_cell {h : g ≤ p} {M : Mesh K g} {v : Variant}
    {bc : Int → τ → BCall K g p ρ → Except Err (τ × Part K p ρ)} (hbc : KeepsCell bc) {n : Nat}
    {s s' : Trk K p τ ρ} (hs : s.part.cell = s.cell) (e : track h M v bc n s = .ok s') :
    (M.isInside (proj h s'.part.x) s'.part.cell = .ok true) ∨
    (s'.part.del = true ∧ s'.part.cell = -1) := by
  rw [track_ok_iff] at e
  obtain ⟨k, -, -, hh⟩ := e
  have aux : ∀ {k : Nat} {s s' : Trk K p τ ρ}, CrossN h M v bc k s s' → s.part.cell = s.cell →
      s'.part.cell = s'.cell := by
    intro k s s' hc
    induction hc with
    | zero s => exact id
    | succ out e r ih => intro h0; exact ih ((cell_step hbc h0 (crossOnce_ok e)).1 rfl)
  rcases hh with ⟨hh, hin⟩ | ⟨j, s0, -, hh, hout, hlast⟩
  · left
    rw [aux hh hs]
    exact hin
  · right
    have := (cell_step hbc (aux hh hs) (crossOnce_ok hlast)).2 rfl
    exact ⟨this.2, this.1⟩

/-- C25.  When a particle has been moved and tracked without an error, either it is inside
the cell it is labelled with, or it is flagged as deleted and labelled NO_CELL.  Any
mesh, any boundary callbacks that do not write the label. -/
theorem C25_cell_label {h : g ≤ p} {M : Mesh K g} {v : Variant}
    {bc : Int → τ → BCall K g p ρ → Except Err (τ × Part K p ρ)} (hbc : KeepsCell bc)
    {n : Nat} {time dt qmdt : K} {accel : Bool}
    {E : Part K p ρ → Option (Vec K p)} {st st' : τ × Vec K p} {q q' : Part K p ρ}
    {evs : List (Part K p ρ × K)}
    (e : moveCharged h M v bc n time dt qmdt accel E st q = .ok (st', q', evs) ∨
      moveNeutral h M v bc n time dt st q = .ok (st', q', evs)) :
    M.isInside (proj h q'.x) q'.cell = .ok true ∨ (q'.del = true ∧ q'.cell = -1) := by
  rcases e with e | e
  · unfold moveCharged at e
    dsimp only at e
    cases ht : track h M v bc n (startTrk time dt st.1 st.2
      (if accel = true then accelerate qmdt (E q) q else moveBy dt (accelerate qmdt (E q) q))) with
    | error e' => rw [ht] at e; cases e
    | ok s =>
      rw [ht] at e
      simp only [bind, Except.bind, pure, Except.pure, Except.ok.injEq, Prod.mk.injEq] at e
      obtain ⟨-, rfl, -⟩ := e
      exact track_cell hbc rfl ht
  · unfold moveNeutral at e
    cases ht : track h M v bc n (startTrk time dt st.1 st.2 (moveBy dt q)) with
    | error e' => rw [ht] at e; cases e
    | ok s =>
      rw [ht] at e
      simp only [bind, Except.bind, pure, Except.pure, Except.ok.injEq, Prod.mk.injEq] at e
      obtain ⟨-, rfl, -⟩ := e
      exact track_cell hbc rfl ht

theorem demoBC_keepsCell : KeepsCell demoBC := by
  intro value st call st' q' e
  unfold demoBC at e
  split at e
  · unfold bcReflect at e
    split at e
    · cases e
    · cases e; rfl
  · cases e; rfl

/-! ## C26 -/

/-- C26.  A particle that is moved without an error has crossed at most the allowed number
of facets; the stored counter is the number of crossings, and every one of them was
made because the particle was not in the cell reached. -/
theorem C26_crossings {h : g ≤ p} {M : Mesh K g} {v : Variant}
    {bc : Int → τ → BCall K g p ρ → Except Err (τ × Part K p ρ)}
    {n : Nat} {time dt qmdt : K} {accel : Bool}
    {E : Part K p ρ → Option (Vec K p)} {st st' : τ × Vec K p} {q q' : Part K p ρ}
    {evs : List (Part K p ρ × K)}
    (e : moveCharged h M v bc n time dt qmdt accel E st q = .ok (st', q', evs)) :
    q'.crossings ≤ n ∧
    ∃ s s' : Trk K p τ ρ, s = startTrk time dt st.1 st.2
        (if accel then accelerate qmdt (E q) q else moveBy dt (accelerate qmdt (E q) q)) ∧
      q' = { s'.part with crossings := q'.crossings } ∧
      ((CrossN h M v bc q'.crossings s s' ∧ M.isInside (proj h s'.part.x) s'.cell = .ok true) ∨
        ∃ (j : Nat) (s0 : Trk K p τ ρ), q'.crossings = j + 1 ∧ CrossN h M v bc j s s0 ∧
          M.isInside (proj h s0.part.x) s0.cell = .ok false ∧
          crossOnce h M v bc s0 = .ok (s', true)) := by
  unfold moveCharged at e
  dsimp only at e
  cases ht : track h M v bc n (startTrk time dt st.1 st.2
    (if accel = true then accelerate qmdt (E q) q else moveBy dt (accelerate qmdt (E q) q))) with
  | error e' => rw [ht] at e; cases e
  | ok s =>
    rw [ht] at e
    simp only [bind, Except.bind, pure, Except.pure, Except.ok.injEq, Prod.mk.injEq] at e
    obtain ⟨-, rfl, -⟩ := e
    obtain ⟨k, hk, hcount, hh⟩ := (track_ok_iff _ _ _).1 ht
    have hc : s.count = k := by
      rw [hcount]; simp [startTrk]
    simp only
    rw [hc]
    exact ⟨hk, _, s, rfl, rfl, hh⟩

/-- C26.  If a particle is still outside the cell reached after the allowed number of
crossings, RuntimeError is raised (NameError in `advance_neutral_species`, where building
the message fails). -/
theorem C26_limit {h : g ≤ p} {M : Mesh K g} {v : Variant}
    {bc : Int → τ → BCall K g p ρ → Except Err (τ × Part K p ρ)}
    {n : Nat} {time dt qmdt : K} {accel : Bool}
    {E : Part K p ρ → Option (Vec K p)} {st : τ × Vec K p} {q : Part K p ρ} {s' : Trk K p τ ρ}
    (hc : CrossN h M v bc n (startTrk time dt st.1 st.2
        (if accel then accelerate qmdt (E q) q else moveBy dt (accelerate qmdt (E q) q))) s')
    (hout : M.isInside (proj h s'.part.x) s'.cell = .ok false) :
    moveCharged h M v bc n time dt qmdt accel E st q =
      .error (if v.noName then .name else .tooMany) := by
  have := track_tooMany hc hout
  unfold moveCharged
  dsimp only
  rw [this]
  rfl

/-- C26.  A larger limit does not change the outcome of a move that succeeds. -/
theorem C26_limit_monotone {h : g ≤ p} {M : Mesh K g} {v : Variant}
    {bc : Int → τ → BCall K g p ρ → Except Err (τ × Part K p ρ)}
    {n m : Nat} (hnm : n ≤ m) {time dt qmdt : K} {accel : Bool}
    {E : Part K p ρ → Option (Vec K p)} {st : τ × Vec K p} {q : Part K p ρ}
    {r : (τ × Vec K p) × Part K p ρ × List (Part K p ρ × K)}
    (e : moveCharged h M v bc n time dt qmdt accel E st q = .ok r) :
    moveCharged h M v bc m time dt qmdt accel E st q = .ok r := by
  unfold moveCharged at e ⊢
  dsimp only at e ⊢
  cases ht : track h M v bc n (startTrk time dt st.1 st.2
    (if accel = true then accelerate qmdt (E q) q else moveBy dt (accelerate qmdt (E q) q))) with
  | error e' => rw [ht] at e; cases e
  | ok s =>
    rw [ht] at e
    obtain ⟨k, hk, hh⟩ := (track_ok_iff _ _ _).1 ht
    rw [(track_ok_iff m _ s).2 ⟨k, hk.trans hnm, hh⟩]
    exact e

/-- C26.  A particle that stays in its cell has 0 crossings. -/
theorem C26_none {h : g ≤ p} {M : Mesh K g} {v : Variant}
    {bc : Int → τ → BCall K g p ρ → Except Err (τ × Part K p ρ)} {n : Nat} {time dt qmdt : K}
    {E : Part K p ρ → Option (Vec K p)} {st : τ × Vec K p} {q : Part K p ρ}
    (hin : M.isInside (proj h (q.x + dt • (accelerate qmdt (E q) q).u)) q.cell = .ok true) :
    ∃ q', moveCharged h M v bc n time dt qmdt false E st q = .ok (st, q', []) ∧
      q'.crossings = 0 ∧ q'.cell = q.cell ∧ q'.x0 = q.x ∧
      q'.x = q.x + dt • (accelerate qmdt (E q) q).u := by
  have hcell : (accelerate qmdt (E q) q).cell = q.cell := by unfold accelerate; split <;> rfl
  have hx : (accelerate qmdt (E q) q).x = q.x := by unfold accelerate; split <;> rfl
  unfold moveCharged
  simp only [Bool.false_eq_true, if_false]
  rw [track_inside (s := startTrk time dt st.1 st.2 (moveBy dt (accelerate qmdt (E q) q)))]
  · refine ⟨_, rfl, rfl, ?_, ?_, ?_⟩
    · exact hcell
    · exact hx
    · simp only [startTrk, moveBy, hx]
  · simp only [startTrk, moveBy, hx, hcell]
    exact hin

/-- Non-vacuity of C26_limit: two crossings are needed, one is allowed. -/
example : demoView (moveCharged (le_refl 1) demoLine .charged demoBC 1 5 2 1 false
    (fun _ => none) ((), ![0]) (demoPart (1/2) 1 0 true)) = .error .tooMany := by decide +kernel

/-! ## C27 -/

/-- C27.  A run in which no callback is called (one that succeeds even with a callback that
always fails) gives the same result with any callback; the particle ends at `x + u dt`
with the accelerated velocity; its flags, weight, ID, ... are unchanged, nothing is
recorded and the user state is untouched. -/
theorem C27_free_motion {h : g ≤ p} {M : Mesh K g} {v : Variant}
    {n : Nat} {time dt qmdt : K} {E : Part K p ρ → Option (Vec K p)} {st st' : τ × Vec K p}
    {q q' : Part K p ρ} {evs : List (Part K p ρ × K)}
    (e : moveCharged h M v noCallback n time dt qmdt false E st q = .ok (st', q', evs)) :
    (∀ bc, moveCharged h M v bc n time dt qmdt false E st q = .ok (st', q', evs)) ∧
    q'.u = (match E q with | none => q.u | some e => q.u + qmdt • e) ∧
    q'.x = q.x + dt • q'.u ∧
    q'.del = q.del ∧ q'.traj = q.traj ∧ q'.rest = q.rest ∧ evs = [] ∧ st'.1 = st.1 := by
  have hu : (accelerate qmdt (E q) q).u = (match E q with | none => q.u | some e => q.u + qmdt • e) := by
    unfold accelerate; cases E q <;> rfl
  have hacc : (accelerate qmdt (E q) q).x = q.x ∧ (accelerate qmdt (E q) q).del = q.del ∧
      (accelerate qmdt (E q) q).traj = q.traj ∧ (accelerate qmdt (E q) q).rest = q.rest := by
    unfold accelerate; cases E q <;> exact ⟨rfl, rfl, rfl, rfl⟩
  obtain ⟨a1, a2, a3, a4⟩ := hacc
  unfold moveCharged at e
  simp only [Bool.false_eq_true, if_false] at e
  cases ht : track h M v noCallback n (startTrk time dt st.1 st.2
    (moveBy dt (accelerate qmdt (E q) q))) with
  | error e' => rw [ht] at e; cases e
  | ok s =>
    rw [ht] at e
    simp only [bind, Except.bind, pure, Except.pure, Except.ok.injEq, Prod.mk.injEq] at e
    obtain ⟨rfl, rfl, rfl⟩ := e
    have hU := (track_induct (Untouched (startTrk time dt st.1 st.2
      (moveBy dt (accelerate qmdt (E q) q)))) (fun _ _ _ hs _ hc => untouched_step hs hc) n _ _
      ⟨rfl, rfl, rfl, rfl, rfl, rfl, rfl, rfl⟩ ht).1
    refine ⟨?_, ?_, ?_, ?_, ?_, ?_, ?_, ?_⟩
    · intro bc
      unfold moveCharged
      simp only [Bool.false_eq_true, if_false]
      rw [track_noCallback ht bc]
      rfl
    · simp only
      rw [hU.u, ← hu]; rfl
    · simp only
      rw [hU.x, hU.u]
      simp only [startTrk, moveBy, a1]
    · simp only
      rw [hU.del]; exact a2
    · simp only
      rw [hU.traj]; exact a3
    · simp only
      rw [hU.rest]; exact a4
    · rw [hU.events]; rfl
    · simp only
      rw [hU.st]; rfl

/-- C27, neutral species. -/
theorem C27_free_motion_neutral {h : g ≤ p} {M : Mesh K g} {v : Variant}
    {n : Nat} {time dt : K} {st st' : τ × Vec K p}
    {q q' : Part K p ρ} {evs : List (Part K p ρ × K)}
    (e : moveNeutral h M v noCallback n time dt st q = .ok (st', q', evs)) :
    (∀ bc, moveNeutral h M v bc n time dt st q = .ok (st', q', evs)) ∧
    q'.u = q.u ∧ q'.x = q.x + dt • q.u ∧
    q'.del = q.del ∧ q'.traj = q.traj ∧ q'.rest = q.rest ∧ evs = [] ∧ st'.1 = st.1 := by
  unfold moveNeutral at e
  cases ht : track h M v noCallback n (startTrk time dt st.1 st.2 (moveBy dt q)) with
  | error e' => rw [ht] at e; cases e
  | ok s =>
    rw [ht] at e
    simp only [bind, Except.bind, pure, Except.pure, Except.ok.injEq, Prod.mk.injEq] at e
    obtain ⟨rfl, rfl, rfl⟩ := e
    have hU := (track_induct (Untouched (startTrk time dt st.1 st.2 (moveBy dt q)))
      (fun _ _ _ hs _ hc => untouched_step hs hc) n _ _
      ⟨rfl, rfl, rfl, rfl, rfl, rfl, rfl, rfl⟩ ht).1
    refine ⟨?_, hU.u, hU.x, hU.del, hU.traj, hU.rest, hU.events, hU.st⟩
    intro bc
    unfold moveNeutral
    rw [track_noCallback ht bc]
    rfl

/-- C27.  With `accel_only` a particle that is inside its cell is only accelerated. -/
theorem C27_accel_only {h : g ≤ p} {M : Mesh K g} {v : Variant}
    (bc : Int → τ → BCall K g p ρ → Except Err (τ × Part K p ρ)) (n : Nat) (time dt qmdt : K)
    (E : Part K p ρ → Option (Vec K p)) (st : τ × Vec K p) {q : Part K p ρ}
    (hin : M.isInside (proj h q.x) q.cell = .ok true) :
    moveCharged h M v bc n time dt qmdt true E st q =
      .ok (st, { q with u := (match E q with | none => q.u | some e => q.u + qmdt • e),
                        crossings := 0 }, []) := by
  unfold moveCharged
  simp only [if_true]
  rw [track_inside (s := startTrk time dt st.1 st.2 (accelerate qmdt (E q) q))]
  · unfold accelerate
    cases E q <;> rfl
  · unfold accelerate
    cases E q <;> exact hin

/-- Non-vacuity of C27: the run through two cells of the line calls no callback. -/
example : demoView (moveCharged (le_refl 1) demoLine .charged noCallback 10 5 2 1 false
    (fun _ => some ![1]) ((), ![0]) (demoPart (1/2) 0 0 true)) =
    .ok [5/2, 2, 1, 2, 0, 2] := by decide +kernel

/-! ## C28 -/

theorem start_sound {h : g ≤ p} {M : Mesh K g} (hM : M.Conforming) {time dt : K} {st : τ}
    {dxS : Vec K p} {q : Part K p ρ} {c : Cell K g} (hc : M.cell q.cell = some c)
    (hx : c.Has (proj h q.x0)) : Sound h M (startTrk time dt st dxS q) := by
  refine ⟨c, hc, hx, ?_⟩
  intro k n hk _
  have := hM.nonneg _ _ _ hc (List.mem_of_getElem? hk)
  simp [startTrk, noFacet] at this

/-- A particle that is where its label says. -/
def InItsCell (h : g ≤ p) (M : Mesh K g) (q : Part K p ρ) : Prop :=
  M.isInside (proj h q.x) q.cell = .ok true

theorem InItsCell.get {h : g ≤ p} {M : Mesh K g} (hM : M.Conforming) {q : Part K p ρ}
    (hq : InItsCell h M q) : ∃ c, M.cell q.cell = some c ∧ c.Has (proj h q.x) := by
  unfold InItsCell Mesh.isInside Mesh.lookup at hq
  cases hc : M.cell q.cell with
  | none => rw [hc] at hq; cases hq
  | some c =>
    refine ⟨c, rfl, ?_⟩
    rw [hc] at hq
    simp only [bind, Except.bind, pure, Except.pure, Except.ok.injEq] at hq
    exact (contains_iff (hM.regular _ _ hc) _).1 hq

/-- C28.  On a conforming mesh with marked boundary and callbacks that delete or turn
back, a particle that is in its cell is moved without an error, or more than the
allowed number of facets has been crossed.  In particular none of the errors that "should
not happen" (no facet found; the same facet twice in succession) occurs. -/
theorem C28_no_error {h : g ≤ p} {M : Mesh K g} (hM : M.Conforming) {v : Variant}
    (hv : v.datum = .ok ()) {bc : Int → τ → BCall K g p ρ → Except Err (τ × Part K p ρ)}
    (hbc : GoodBC h M (v.sharesDx = true) bc) (n : Nat) (time dt qmdt : K) (accel : Bool)
    (E : Part K p ρ → Option (Vec K p)) (st : τ × Vec K p) {q : Part K p ρ}
    (hq : InItsCell h M q) :
    (∃ r, moveCharged h M v bc n time dt qmdt accel E st q = .ok r) ∨
    (moveCharged h M v bc n time dt qmdt accel E st q = .error (v.err .tooMany) ∧
      ∃ s', CrossN h M v bc n (startTrk time dt st.1 st.2
        (if accel then accelerate qmdt (E q) q else moveBy dt (accelerate qmdt (E q) q))) s' ∧
        M.isInside (proj h s'.part.x) s'.cell = .ok false) := by
  obtain ⟨c, hc, hx⟩ := hq.get hM
  have hcell : (accelerate qmdt (E q) q).cell = q.cell := by unfold accelerate; split <;> rfl
  have hxx : (accelerate qmdt (E q) q).x = q.x := by unfold accelerate; split <;> rfl
  have key : (∃ s', track h M v bc n (startTrk time dt st.1 st.2
        (if accel = true then accelerate qmdt (E q) q else moveBy dt (accelerate qmdt (E q) q))) =
        .ok s') ∨
      (track h M v bc n (startTrk time dt st.1 st.2
        (if accel = true then accelerate qmdt (E q) q else moveBy dt (accelerate qmdt (E q) q))) =
        .error (v.err .tooMany) ∧
      ∃ s', CrossN h M v bc n (startTrk time dt st.1 st.2
        (if accel = true then accelerate qmdt (E q) q else moveBy dt (accelerate qmdt (E q) q))) s' ∧
        M.isInside (proj h s'.part.x) s'.cell = .ok false) := by
    cases accel with
    | true =>
      left
      refine ⟨_, track_inside _ ?_⟩
      simp only [if_true, startTrk, hcell, hxx]
      exact hq
    | false =>
      simp only [Bool.false_eq_true, if_false]
      refine track_sound hM hv hbc n _ (start_sound hM (c := c) ?_ ?_)
      · simp only [moveBy, hcell]; exact hc
      · simp only [moveBy, hxx]; exact hx
  unfold moveCharged
  dsimp only
  rcases key with ⟨s, hs⟩ | ⟨hs, hs'⟩
  · rw [hs]; exact .inl ⟨_, rfl⟩
  · rw [hs]; exact .inr ⟨rfl, hs'⟩

/-- C28, neutral species. -/
theorem C28_no_error_neutral {h : g ≤ p} {M : Mesh K g} (hM : M.Conforming) {v : Variant}
    (hv : v.datum = .ok ()) {bc : Int → τ → BCall K g p ρ → Except Err (τ × Part K p ρ)}
    (hbc : GoodBC h M (v.sharesDx = true) bc) (n : Nat) (time dt : K)
    (st : τ × Vec K p) {q : Part K p ρ} (hq : InItsCell h M q) :
    (∃ r, moveNeutral h M v bc n time dt st q = .ok r) ∨
    (moveNeutral h M v bc n time dt st q = .error (v.err .tooMany) ∧
      ∃ s', CrossN h M v bc n (startTrk time dt st.1 st.2 (moveBy dt q)) s' ∧
        M.isInside (proj h s'.part.x) s'.cell = .ok false) := by
  obtain ⟨c, hc, hx⟩ := hq.get hM
  unfold moveNeutral
  rcases track_sound hM hv hbc n (startTrk time dt st.1 st.2 (moveBy dt q))
    (start_sound hM (c := c) hc hx) with ⟨s, hs⟩ | ⟨hs, hs'⟩
  · rw [hs]; exact .inl ⟨_, rfl⟩
  · rw [hs]; exact .inr ⟨rfl, hs'⟩

/-- Any number of steps of a particle, as long as it is not deleted: each step with its own
time step, field and limit.  `none`: the particle was deleted. -/
def steps (h : g ≤ p) (M : Mesh K g) (v : Variant)
    (bc : Int → τ → BCall K g p ρ → Except Err (τ × Part K p ρ)) :
    List (K × K × K × Bool × (Part K p ρ → Option (Vec K p)) × Nat) → τ × Vec K p → Part K p ρ →
    Except Err (Option (Part K p ρ))
  | [], _, q => .ok (some q)
  | (time, dt, qmdt, accel, E, n) :: rest, st, q => do
    let (st', q', _) ← moveCharged h M v bc n time dt qmdt accel E st q
    if q'.del then return none else steps h M v bc rest st' q'

/-- C28.  Over any number of steps a particle that starts in its cell can only end the run
by exceeding the limit on crossings; after every step it is in its cell again. -/
theorem C28_steps {h : g ≤ p} {M : Mesh K g} (hM : M.Conforming) {v : Variant}
    (hv : v.datum = .ok ()) {bc : Int → τ → BCall K g p ρ → Except Err (τ × Part K p ρ)}
    (hbc : GoodBC h M (v.sharesDx = true) bc) (hcell : KeepsCell bc)
    (ts : List (K × K × K × Bool × (Part K p ρ → Option (Vec K p)) × Nat)) (st : τ × Vec K p)
    {q : Part K p ρ} (hq : InItsCell h M q) :
    steps h M v bc ts st q = .error (v.err .tooMany) ∨ steps h M v bc ts st q = .ok none ∨
    ∃ q', steps h M v bc ts st q = .ok (some q') ∧ InItsCell h M q' := by
  induction ts generalizing st q with
  | nil => exact .inr (.inr ⟨q, rfl, hq⟩)
  | cons t rest ih =>
    obtain ⟨time, dt, qmdt, accel, E, n⟩ := t
    simp only [steps]
    rcases C28_no_error hM hv hbc n time dt qmdt accel E st hq with ⟨⟨st', q', evs⟩, e⟩ | ⟨e, -⟩
    · rw [e]
      simp only [bind, Except.bind]
      by_cases hd : q'.del = true
      · rw [if_pos hd]; exact .inr (.inl rfl)
      · rw [if_neg hd]
        refine ih st' ?_
        rcases C25_cell_label hcell (.inl e) with h1 | ⟨h1, -⟩
        · exact h1
        · exact absurd h1 hd
    · rw [e]; exact .inl rfl

/-- Reflection and absorption on the line satisfy the hypotheses of C28. -/
theorem demoBC_good : GoodBC (le_refl 1) demoLine (Variant.charged.sharesDx = true) demoBC := by
  have hU : demoLine.UnitNormals := by
    intro ci c k n hc hn
    obtain ⟨i, -, -, rfl⟩ := lineMesh_cell hc
    rcases k with _ | _ | k
    · obtain rfl := Option.some.inj hn; simp [dot1]
    · obtain rfl := Option.some.inj hn; simp [dot1]
    · simp [lineCell] at hn
  have hint : ∀ F, demoLine.Interior F → F = 1 ∨ F = 2 := by
    rintro F ⟨ci, c, k, cj, hc, hF, hN, hcj⟩
    obtain ⟨i, rfl, hi, rfl⟩ := lineMesh_cell hc
    rcases k with _ | _ | k
    · simp [lineCell] at hF hN
      split at hN <;> omega
    · simp [lineCell] at hF hN
      split at hN <;> omega
    · simp [lineCell] at hF
  have : (Variant.charged.sharesDx = true) = True := by simp [Variant.charged]
  rw [this]
  refine reflect_good demoLine hU (fun v => v == 1) (fun F hF => ?_)
  rcases hint F hF with rfl | rfl <;> decide

/-- Non-vacuity of C28_steps: three steps with two reflections. -/
example : ((steps (le_refl 1) demoLine .charged demoBC
    [(1, 1, 1, false, fun _ => none, 10), (2, 1, 1, false, fun _ => some ![-4], 10),
      (3, 1, 1, false, fun _ => some ![-5], 10)] ((), ![0]) (demoPart (1/2) (-1) 0 true)).map
    (fun o => o.map (fun q => [q.x 0, q.u 0, (q.cell : ℚ)]))) = .ok (some [1/2, -2, 0]) := by
  decide +kernel

example : InItsCell (le_refl 1) demoLine (demoPart (1/2) (-1) 0 true) := by
  unfold InItsCell; decide +kernel

end Dt
