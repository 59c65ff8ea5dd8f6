import Verif.Props.Leapfrog
import Verif.Lemmas.Wall

/-!
# Reflecting walls (C76)
-/

set_option linter.unusedSectionVars false

namespace Dt
open TimeLoop
open Spec (LState Stores Pop Ideal Fault lastOf)
variable {K V : Type} [Field K] [LinearOrder K] [IsStrictOrderedRing K] {τ ρ φ : Type}

section
variable {x : Nat → K} {N : Nat} {marker : Int → Int} {L R : Bool}

/-- C76 (one particle).  On a one-dimensional mesh whose ends reflect or delete, a particle that is
present and whose move succeeds makes a leapfrog step and is then reflected in the walls: position and
velocity after the step, and whether the particle is lost, are those of a motion between two walls
that knows nothing of cells and facets. -/
theorem C76_particle (hM : (lineMesh x N marker).Conforming) {v : Variant} (hv : v.sharesDx = true)
    (hd : v.datum = .ok ()) {bc : Int → τ → BCall K 1 1 ρ → Except Err (τ × Part K 1 ρ)}
    (hb : WallBC marker N L R bc) {n : Nat} {time dt qom : K} {E : Part K 1 ρ → Option (Vec K 1)}
    {st st' : τ × Vec K 1} {q q' : Part K 1 ρ} {evs : List (Part K 1 ρ × K)}
    (hq : Present (le_refl 1) (lineMesh x N marker) q)
    (e : moveCharged (le_refl 1) (lineMesh x N marker) v bc n time dt (qom * dt) false E st q =
      .ok (st', q', evs)) :
    Bounces (x 0) (x N) L R (leap dt qom (E q) (kin q)) (kin q') q'.del := by
  unfold moveCharged at e
  simp only [Bool.false_eq_true, if_false] at e
  change (do
    let s ← track (le_refl 1) (lineMesh x N marker) v bc n (startTrk time dt st.1 st.2 (movedPart dt (qom * dt) E q))
    _) = _ at e
  cases ht : track (le_refl 1) (lineMesh x N marker) v bc n
      (startTrk time dt st.1 st.2 (movedPart dt (qom * dt) E q)) with
  | error e' => rw [ht] at e; cases e
  | ok s =>
    rw [ht] at e
    simp only [bind, Except.bind, pure, Except.pure, Except.ok.injEq, Prod.mk.injEq] at e
    obtain ⟨-, rfl, -⟩ := e
    have hdel : (movedPart dt (qom * dt) E q).del = false := by
      unfold movedPart moveBy accelerate
      cases E q <;> exact hq.2
    have := wall_track hM hv hd hb n (moved_sound hM time dt _ E _ _ hq.1) hdel ht
    rw [← kin_moved]
    exact this

/-- C76.  The motion between two walls determines the result. -/
theorem C76_determined {a b : K} (hab : a ≤ b) {k k1 k2 : Vec K 1 × Vec K 1 × ρ} {l1 l2 : Bool}
    (h1 : Bounces a b L R k k1 l1) (h2 : Bounces a b L R k k2 l2) : k1 = k2 ∧ l1 = l2 :=
  h1.unique hab h2

/-- C76.  Walls change at most the sign of the velocity, and none of the other attributes; a particle
that is not lost is between the walls; between two mirrors no particle is lost. -/
theorem C76_walls {a b : K} {k k' : Vec K 1 × Vec K 1 × ρ} {lost : Bool}
    (h : Bounces a b L R k k' lost) :
    (k'.2.1 = k.2.1 ∨ k'.2.1 = -k.2.1) ∧ k'.2.2 = k.2.2 ∧ (lost = false → a ≤ k'.1 0 ∧ k'.1 0 ≤ b) ∧
    (L = true → R = true → lost = false) := by
  induction h with
  | stays ha hb => exact ⟨.inl rfl, rfl, fun _ => ⟨ha, hb⟩, fun _ _ => rfl⟩
  | leftMirror _ _ _ ih =>
    obtain ⟨h1, h2, h3, h4⟩ := ih
    refine ⟨?_, h2, h3, h4⟩
    rcases h1 with h1 | h1
    · exact .inr h1
    · left; rw [h1]; exact neg_neg _
  | leftHole hL _ => exact ⟨.inl rfl, rfl, (fun h => by cases h), fun h => (by rw [hL] at h; cases h)⟩
  | rightMirror _ _ _ ih =>
    obtain ⟨h1, h2, h3, h4⟩ := ih
    refine ⟨?_, h2, h3, h4⟩
    rcases h1 with h1 | h1
    · exact .inr h1
    · left; rw [h1]; exact neg_neg _
  | rightHole hR _ => exact ⟨.inl rfl, rfl, (fun h => by cases h), fun _ h => (by rw [hR] at h; cases h)⟩

/-- C76.  With an inner end that reflects and an outer end that deletes the limit on crossings is never
exceeded if it is at least twice the number of cells: every particle that is present is moved. -/
theorem C76_no_error (hM : (lineMesh x N marker).Conforming) {v : Variant} (hv : v.sharesDx = true)
    (hd : v.datum = .ok ()) {bc : Int → τ → BCall K 1 1 ρ → Except Err (τ × Part K 1 ρ)}
    (hb : WallBC marker N L false bc) {n : Nat} (hn : 2 * N ≤ n) (time dt qmdt : K)
    (E : Part K 1 ρ → Option (Vec K 1)) (st : τ × Vec K 1) {q : Part K 1 ρ}
    (hq : Present (le_refl 1) (lineMesh x N marker) q) :
    ∃ r, moveCharged (le_refl 1) (lineMesh x N marker) v bc n time dt qmdt false E st q = .ok r := by
  rcases C28_no_error hM hd (by simpa [hv] using hb.good) n time dt qmdt false E st hq.1 with
    hr | ⟨hr, s', hc, -⟩
  · exact hr
  · exfalso
    simp only [Bool.false_eq_true, if_false] at hc
    have hs := moved_sound hM time dt qmdt E st.1 st.2 hq.1
    have hdel : (startTrk time dt st.1 st.2 (movedPart dt qmdt E q)).part.del = false := by
      simp only [startTrk]
      unfold movedPart moveBy accelerate
      cases E q <;> exact hq.2
    obtain ⟨c, hcell, -, -⟩ := hs.ex
    obtain ⟨i, hi, hiN, rfl⟩ := lineMesh_cell hcell
    obtain ⟨h1, h2, h3, -⟩ := wall_crossN hM hv hd hb hc hi hs hdel
    change (0 < ahead (le_refl 1) (startTrk time dt st.1 st.2 (movedPart dt qmdt E q)) → _) at h1
    rcases lt_trichotomy (ahead (le_refl 1) (startTrk time dt st.1 st.2 (movedPart dt qmdt E q))) 0 with
      h0 | h0 | h0
    · have := h2 h0; omega
    · have := h3 h0; omega
    · have := h1 h0; omega

/-- C76 (one particle, reflecting inner end, absorbing outer end): the result of the step in closed
form. -/
theorem C76_folded (hM : (lineMesh x N marker).Conforming) {v : Variant} (hv : v.sharesDx = true)
    (hd : v.datum = .ok ()) {bc : Int → τ → BCall K 1 1 ρ → Except Err (τ × Part K 1 ρ)}
    (hb : WallBC marker N true false bc) {n : Nat} {time dt qom : K} {E : Part K 1 ρ → Option (Vec K 1)}
    {st st' : τ × Vec K 1} {q q' : Part K 1 ρ} {evs : List (Part K 1 ρ × K)}
    (hq : Present (le_refl 1) (lineMesh x N marker) q)
    (e : moveCharged (le_refl 1) (lineMesh x N marker) v bc n time dt (qom * dt) false E st q =
      .ok (st', q', evs)) :
    kin q' = folded (x 0) (leap dt qom (E q) (kin q)) ∧ q'.del = !decide (q'.x 0 ≤ x N) := by
  obtain ⟨h1, h2⟩ := bounces_folded (line_up hM N 0 (by omega) (le_refl _)) (C76_particle hM hv hd hb hq e)
  refine ⟨h1, ?_⟩
  rw [h2, ← h1]
  rfl

/-- C76.  A whole simulation with a reflecting inner and an absorbing outer end, like the spherical
example: from each step to the next the particles make leapfrog steps and are folded at the inner end;
those beyond the outer end are dropped. -/
theorem C76_run (hM : (lineMesh x N marker).Conforming)
    {bc : String → Int → τ → BCall K 1 1 ρ → Except Err (τ × Part K 1 ρ)}
    (hb : ∀ sn, WallBC marker N true false (bc sn)) (hcell : ∀ sn, KeepsCell (bc sn)) {maxCross : Nat}
    {qom : String → K} {E : String → φ → Part K 1 ρ → Option (Vec K 1)}
    {cfg : Cfg K V (Part K 1 ρ) (τ × Vec K 1) φ}
    (hmove : cfg.move = pyMove (le_refl 1) (lineMesh x N marker) bc maxCross cfg.dt qom E)
    (hsrc : SourcesPresent (le_refl 1) (lineMesh x N marker) cfg.sources)
    {onMesh : Part K 1 ρ → Bool} {d : Nat → Nat} {sl D C : Nat}
    (hc : GoodCfg cfg) (hm : GoodMesh cfg onMesh d D C) {z : Species.HRow K} (n : Nat)
    {init : Option (List (String × List (Part K 1 ρ)))}
    (hinit : InitPresent (le_refl 1) (lineMesh x N marker) init)
    {st : State K V (Part K 1 ρ) (τ × Vec K 1) φ} {i : Ideal K V (Part K 1 ρ) (τ × Vec K 1)} {b : List K}
    (hf : Fresh sl D C n z st i b) (hn : (i.pops.map (·.name)).Nodup)
    (hnone : st.writer = none → cfg.partEvery = none)
    {i0 : Ideal K V (Part K 1 ρ) (τ × Vec K 1)} {is : List (Ideal K V (Part K 1 ρ) (τ × Vec K 1))}
    (hr : Ideal.run cfg sl D onMesh init b n i = .ok (i0, is)) :
    (i0 :: is).IsChain (MotionStep (fun sn f q => folded (x 0) (leap cfg.dt (qom sn) (E sn f q) (kin q)))
      (fun y => decide (y 0 ≤ x N)) cfg sl D) ∧
    ∃ st', run cfg init n st = .ok st' ∧ Outcome cfg d C init.isSome b st st' i0 is :=
  motion_run (motion := fun sn f q => folded (x 0) (leap cfg.dt (qom sn) (E sn f q) (kin q)))
    (keep := fun y => decide (y 0 ≤ x N))
    (fun sn _ _ _ _ _ _ _ hx em => C76_folded hM rfl rfl (hb sn) hx em) hcell hmove hsrc hc hm n hinit hf hn
    hnone hr

/-- C76.  Such a simulation without sources, with at most half as many cells as the crossing limit
(`MAX_FACET_CROSS_COUNT` = 100), runs to the end, unless a species loses all its particles in one step
(C14). -/
theorem C76_runs (hM : (lineMesh x N marker).Conforming)
    {bc : String → Int → τ → BCall K 1 1 ρ → Except Err (τ × Part K 1 ρ)}
    (hb : ∀ sn, WallBC marker N true false (bc sn)) (hcell : ∀ sn, KeepsCell (bc sn)) {maxCross : Nat}
    (hN : 2 * N ≤ maxCross) {qom : String → K} {E : String → φ → Part K 1 ρ → Option (Vec K 1)}
    {cfg : Cfg K V (Part K 1 ρ) (τ × Vec K 1) φ}
    (hmove : cfg.move = pyMove (le_refl 1) (lineMesh x N marker) bc maxCross cfg.dt qom E)
    (hsrc : cfg.sources = []) {onMesh : Part K 1 ρ → Bool}
    (hon : ∀ q, Present (le_refl 1) (lineMesh x N marker) q → onMesh q = true)
    {d : Nat → Nat} {sl D C : Nat}
    (hc : GoodCfg cfg) (hm : GoodMesh cfg onMesh d D C) {z : Species.HRow K} (n : Nat)
    {init : Option (List (String × List (Part K 1 ρ)))}
    (hinit : InitPresent (le_refl 1) (lineMesh x N marker) init)
    {st : State K V (Part K 1 ρ) (τ × Vec K 1) φ} {i : Ideal K V (Part K 1 ρ) (τ × Vec K 1)} {b : List K}
    (hf : Fresh sl D C n z st i b) (hnone : st.writer = none → cfg.partEvery = none)
    (hig : ∀ gs, init = some gs → ∀ a ∈ gs, a.1 ∈ i.pops.map (·.name))
    (hlost : Ideal.run cfg sl D onMesh init b n i ≠ .error .allLost) :
    ∃ st', run cfg init n st = .ok st' := by
  have key := C68_run hc hm n init hf hnone
  cases hr : Ideal.run cfg sl D onMesh init b n i with
  | ok r =>
    rw [hr] at key
    obtain ⟨_, st', e, _⟩ := key
    exact ⟨st', e⟩
  | error f =>
    rcases run_faults hM hmove hcell (by rw [hsrc]; intro s hs; cases hs) hon n hinit
      (fun sn _ => (hb sn).good) hf.empty (by rw [hsrc]; intro s hs; cases hs) hig hr with
      rfl | ⟨rfl, hs⟩ | ⟨rfl, sn, fld, side, q, t, -, hq, he⟩
    · exact absurd hr hlost
    · exact absurd hsrc hs
    · obtain ⟨r, hr⟩ := C76_no_error hM (v := .charged) rfl rfl (hb sn) hN t cfg.dt (qom sn * cfg.dt)
        (E sn fld) side hq
      rw [hr] at he; cases he

end

/-! ### The hypotheses are met -/

/-- Reflect at marker 1, delete at marker 2; no callback for other values. -/
def wallBC : Int → Unit → BCall ℚ 1 1 Nat → Except Err (Unit × Part ℚ 1 Nat) := fun v st b =>
  if v = 1 then bcReflect st b else if v = 2 then bcAbsorb st b else .error .key

theorem wallBC_wall :
    WallBC (fun F => if F = 0 then 1 else if F = 3 then 2 else 0) 3 true false wallBC := by
  refine ⟨fun st call h => ⟨st, rfl⟩, fun st call h => ⟨st, rfl⟩, fun st call h0 h3 => .inr ?_⟩
  rw [if_neg h0, if_neg (show call.facet ≠ (3 : Int) from h3)]
  exact ⟨rfl, _, rfl⟩

theorem wallBC_keepsCell : KeepsCell wallBC := by
  intro value st call st' q' e
  unfold wallBC at e
  split at e
  · unfold bcReflect at e
    split at e
    · cases e
    · cases e; rfl
  · split at e
    · cases e; rfl
    · cases e

/-- The simulation of `Simulation` with a reflecting left end. -/
def wallCfg : Cfg ℚ ℚ SimPart (Unit × Vec ℚ 1) (List ℚ) :=
  { simCfg [] with
    move := pyMove (le_refl 1) demoLine (fun _ => wallBC) 6 (1 / 2) (fun _ => -1) simField }

theorem wall_good : GoodCfg wallCfg := by
  obtain ⟨h1, h2, h3, h4, h5⟩ := sim_good []
  exact ⟨⟨h1.1, h1.2⟩, h2, h3, h4, h5⟩

theorem wall_mesh : GoodMesh wallCfg onSim (fun k => k) 4 3 := by
  obtain ⟨h1, h2, h3⟩ := sim_mesh []
  exact ⟨h1, h2, h3⟩

-- The second electron is lost in the first step, the third one is reflected in the third.
example : kinView (Ideal.run wallCfg 2 4 onSim (some simInit) [0, 0, 0, 0] 3 simIdeal) = some
    [[(1 / 2, 1), (3 / 2, 9), (5 / 2, -2)], [(793 / 800, 393 / 400), (1207 / 800, -793 / 400)],
      [(466147 / 320000, 148947 / 160000), (171053 / 320000, -311747 / 160000)],
      [(247428913 / 128000000, 60970113 / 64000000), (57649313 / 128000000, 126070513 / 64000000)]] := by decide +kernel

example : ∃ i0 is st', Ideal.run wallCfg 2 4 onSim (some simInit) [0, 0, 0, 0] 4 simIdeal = .ok (i0, is) ∧
    run wallCfg (some simInit) 4 (simState 4) = .ok st' ∧
    (i0 :: is).IsChain (MotionStep
      (fun sn f q => folded 0 (leap (1 / 2) (-1) (simField sn f q) (kin q)))
      (fun y => decide (y 0 ≤ 3)) wallCfg 2 4) := by
  cases hr : Ideal.run wallCfg 2 4 onSim (some simInit) [0, 0, 0, 0] 4 simIdeal with
  | error f =>
    have : (kinView (Ideal.run wallCfg 2 4 onSim (some simInit) [0, 0, 0, 0] 4 simIdeal)).isSome = true := by
      decide +kernel
    rw [hr] at this; cases this
  | ok r =>
    obtain ⟨i0, is⟩ := r
    obtain ⟨h1, st', h2, -⟩ := C76_run (x := fun i => (i : ℚ)) (N := 3) demoLine_conforming
      (fun _ => wallBC_wall) (fun _ => wallBC_keepsCell) (cfg := wallCfg) rfl
      (fun s hs => by cases hs) wall_good wall_mesh 4 sim_init (sim_fresh 4) (by decide)
      (fun h => by cases h) hr
    refine ⟨i0, is, st', rfl, h2, ?_⟩
    simpa [wallCfg, simCfg] using h1

/-- C76 is false, as far as running without errors is concerned, between two mirrors: a fast particle
exceeds the limit on crossings, whatever the number of cells is. -/
theorem C76_false_two_mirrors : ∃ (q : Part ℚ 1 Nat), Present (le_refl 1) demoLine q ∧
    WallBC (fun F => if F = 0 then 1 else if F = 3 then 2 else 0) 3 true true
      (fun v (st : Unit) (b : BCall ℚ 1 1 Nat) => if v = 0 then .error .key else bcReflect st b) ∧
    (moveCharged (le_refl 1) demoLine .charged
      (fun v (st : Unit) (b : BCall ℚ 1 1 Nat) => if v = 0 then .error .key else bcReflect st b) 100 1 1 1 false
      (fun _ => none) ((), ![0]) q).map (fun _ => ()) = .error .tooMany := by
  refine ⟨demoPart (1 / 2) 1000 0 false, ⟨by unfold InItsCell; decide +kernel, rfl⟩, ?_, by decide +kernel⟩
  refine ⟨fun st call h => ⟨st, rfl⟩, fun st call h => ⟨st, rfl⟩, fun st call h0 h3 => .inr ?_⟩
  rw [if_neg h0, if_neg (show call.facet ≠ (3 : Int) from h3)]
  exact ⟨rfl, _, rfl⟩

end Dt
