import Verif.Props.CppEField
import Verif.Props.Field
import Verif.Props.ElementsLoop
import Verif.Props.Wall
import Verif.Props.UserBC
/-!
# More theorems applied to concrete cases

The theorems about a time step of the compiled movers (C66, C67), about the energy of the field (C96),
about the mirror (C76) and about the sample callbacks (C106) have many hypotheses.  Here each of them is
applied to a concrete case, so that the hypotheses are seen to be met together.
-/
namespace Dt

/-! ### The compiled movers -/

section
open SAP Spec CppMover EField

/-- Every list of particles is held by some container of the compiled code ... -/
theorem cstored {α : Type} (sl : Nat) (h : 2 ≤ sl) (junk : α) (xs : List α) :
    ∃ s : CSAP α, Used s ∧ CStores s xs ∧ s.sl = sl := by
  suffices ∃ s : CSAP α, Used s ∧ s.py.Synced ∧ s.py.contents = xs ∧ s.sl = sl by
    obtain ⟨s, hu, -, hc, hsl⟩ := this
    exact ⟨s, hu, (cstores_iff (used_inv hu).1 xs).2 hc.symm, hsl⟩
  induction xs using List.reverseRecOn with
  | nil => exact ⟨CSAP.new sl junk, .new sl junk h, rfl, new_contents sl junk, rfl⟩
  | append_singleton xs x ih =>
    obtain ⟨s, hu, hs, hc, hsl⟩ := ih
    have hi := (used_inv hu).1
    obtain ⟨s1, e1, hi1, hc1, hsl1, hj1, hin1, his1, hos1, hcur1, _⟩ := pushBack_ok hi x (.inr hs)
    have this := same_exec (s := s) (by omega) (m := (.push x : Method α)) trivial
    simp only [pyExec, cppExec, e1, bind, Except.bind, pure, Except.pure] at this
    cases e : s.pushArray x with
    | error err => rw [e] at this; simp [Same] at this
    | ok r =>
      rw [e] at this
      simp only [Same] at this
      refine ⟨r.1, .push hu e, ?_, ?_, ?_⟩
      · rw [← this.1]; unfold Synced at *; omega
      · rw [← this.1, hc1, hc]
      · rw [pushArray_sl _ _ _ _ e, hsl]

/-- ... and by some container of the Python code. -/
theorem stored {α : Type} (sl : Nat) (h : 0 < sl) (junk : α) (xs : List α) :
    ∃ s : SAP α, Reachable s ∧ Stores s xs ∧ s.sl = sl := by
  obtain ⟨s, rs, e, hi, _, hc, hsl, _⟩ := pushAll_ok (new_inv sl junk h) (by
    simp [Synced, SAP.new, outA, arr]) xs
  simp only [new_contents, List.nil_append] at hc
  exact ⟨s, Fld.pushAll_reachable (Reachable.new sl _ h) e, (stores_iff hi xs).2 hc.symm, hsl⟩

/-- Non-vacuity of `C66_charged_step`: any particles on the line of three cells, in containers of both
kinds. -/
example (xs : List (Part ℚ 1 Nat)) (hne : xs ≠ []) (hbig : xs.length < 4294967296) :
    ∃ (s : CSAP (Part ℚ 1 Nat)) (sp : SAP (Part ℚ 1 Nat)), CStores s xs ∧ Stores sp xs ∧
      let compiled := cppPass (fun _ => false)
        (TrajSp.adv 100 none 1 0 2 (·.traj) (·.del) (fun i t q => (i, t, q)) (fun i t q => (i, t, q))
          (cppMoveCharged (le_refl 1) layoutX demoLineCpp demoBC 10 0 2 1 (fun q => some q.x))) s
            ((((), 0), fun _ => 99), TrajSp.empty)
      let python := Mover.meshPass
        (TrajSp.adv 100 none 1 0 2 (·.traj) (·.del) (fun i t q => (i, t, q)) (fun i t q => (i, t, q))
          (moveCharged (le_refl 1) demoLine .charged demoBC 10 0 2 1 false (fun q => some q.x))) sp
            (((), 0), TrajSp.empty)
      (∃ e1 e2, compiled = .error e1 ∧ python = .error e2) ∨
      ∃ s' sp' st' sc' t' ys, compiled = .ok (s', ((st', sc'), t')) ∧
        python = .ok (sp', (st', t')) ∧ CStores s' ys ∧ Stores sp' ys ∧ Used s' := by
  obtain ⟨s, hu, hs, -⟩ := cstored 2 (by decide) (demoPart 0 0 0 false) xs
  obtain ⟨sp, hr, hsp, -⟩ := stored 3 (by decide) (demoPart 0 0 0 false) xs
  exact ⟨s, sp, hs, hsp, C66_charged_step demoLineCpp_twin (le_refl 1) C66_layouts.1
    (fun _ _ _ _ => Iff.rfl) 10 0 2 1 _ 100 none 1 _ _ hu hr hs hsp hne hbig ((), 0) (fun _ => 99)
    TrajSp.empty⟩

/-- Non-vacuity of `C66_neutral_step`: the same with absorbing ends. -/
example (xs : List (Part ℚ 1 Nat)) (hne : xs ≠ []) (hbig : xs.length < 4294967296)
    (hdel : ∀ x ∈ xs, x.del = false) :
    ∃ (s : CSAP (Part ℚ 1 Nat)) (sp : SAP (Part ℚ 1 Nat)), CStores s xs ∧ Stores sp xs ∧
      let compiled := cppPass (·.del)
        (TrajSp.adv 100 none 1 0 2 (·.traj) (·.del) (fun i t q => (i, t, q)) (fun i t q => (i, t, q))
          (cppMoveNeutral (le_refl 1) layoutX demoLineCpp (fun _ st b => bcAbsorb st b) 10 0 2)) s
            ((((), 0), fun _ => 99), TrajSp.empty)
      let python := Mover.meshPass
        (TrajSp.adv 100 none 1 0 2 (·.traj) (·.del) (fun i t q => (i, t, q)) (fun i t q => (i, t, q))
          (moveNeutral (le_refl 1) demoLine .neutral (fun _ st b => bcAbsorb st b) 10 0 2)) sp
            (((), 0), TrajSp.empty)
      (∃ e1 e2, compiled = .error e1 ∧ python = .error e2) ∨
      ∃ s' sp' u' d' d2' sc' t' ys, compiled = .ok (s', (((u', d'), sc'), t')) ∧
        python = .ok (sp', ((u', d2'), t')) ∧ CStores s' ys ∧ Stores sp' ys ∧ Used s' ∧
        ∀ y ∈ ys, y.del = false := by
  obtain ⟨s, hu, hs, -⟩ := cstored 2 (by decide) (demoPart 0 0 0 false) xs
  obtain ⟨sp, hr, hsp, -⟩ := stored 3 (by decide) (demoPart 0 0 0 false) xs
  exact ⟨s, sp, hs, hsp, C66_neutral_step demoLineCpp_twin (le_refl 1) C66_layouts.1
    (fun _ _ _ _ => Iff.rfl) (fun _ _ _ _ => rfl) 10 0 2 100 none 1 _ _ hu hr hs hsp hne hbig hdel () 0 0
    (fun _ => 99) TrajSp.empty⟩

/-- Non-vacuity of `C67_agrees_with_python`: any particles of the species `e` on the line of three
cells, in a field of strength 2 that is enabled for them. -/
example (xs : List (Part ℚ 1 Nat)) (hne : xs ≠ []) (hbig : xs.length < 4294967296) :
    ∃ (s : CSAP (Part ℚ 1 Nat)) (sp : SAP (Part ℚ 1 Nat)), CStores s xs ∧ Stores sp xs ∧
      let compiled := cppAdvanceCharged (demoFields "e") false (cppKicked 1 (fun cross =>
        TrajSp.adv 100 none 1 0 2 (·.traj) (·.del) (fun i t q => (cross (0, 0), i, t, q)) (fun i t q => (.ok (0, 0), i, t, q))
          (cppMoveCharged (le_refl 1) layoutX demoLineCpp demoBC 10 0 2 0 (fun _ => none)))) s
            (EField.Scratch.new 2) ((((), 0), fun _ => 99), TrajSp.empty)
      let python := Mover.meshPassE (EField.prepare (demoFields "e") (fun n : Nat => ((n : ℚ), n + 1))) (kicked 1 (fun cross =>
        TrajSp.adv 100 none 1 0 2 (·.traj) (·.del) (fun i t q => (cross, i, t, q)) (fun i t q => (.ok (0, 0), i, t, q))
          (moveCharged (le_refl 1) demoLine .charged demoBC 10 0 2 0 false (fun _ => none)))) sp
            (EField.Scratch.new 3, 0) (((), 0), TrajSp.empty)
      (∃ e1 e2, compiled = .error e1 ∧ python = .error e2) ∨
      ∃ s' sp' r1 r2 st' sc' t' ys, compiled = .ok (s', r1, ((st', sc'), t')) ∧
        python = .ok (sp', r2, (st', t')) ∧ CStores s' ys ∧ Stores sp' ys ∧ Used s' := by
  obtain ⟨s, hu, hs, hsl⟩ := cstored 2 (by decide) (demoPart 0 0 0 false) xs
  obtain ⟨sp, hr, hsp, hsl'⟩ := stored 3 (by decide) (demoPart 0 0 0 false) xs
  refine ⟨s, sp, hs, hsp, C67_agrees_with_python (δ := Except Err (Vec ℚ 1 × Vec ℚ 1) × Int × ℚ × Part ℚ 1 Nat) demoLineCpp_twin (le_refl 1) C66_layouts.1
    (fun _ _ _ _ => Iff.rfl) 10 0 2 1 100 none 1 (fun v i t q => (v, i, t, q)) (.inl rfl) _ (demoFields "e") _ rfl rfl rfl hu hr hs hsp hne hbig
    (fun q _ G hG _ => by cases hG; exact ⟨_, rfl⟩) _ ?_ _ ?_ 0 ((), 0) (fun _ => 99) (0, 0) TrajSp.empty⟩
  · rw [hsl]; exact ⟨rfl, rfl, rfl⟩
  · rw [hsl']; exact ⟨rfl, rfl, rfl⟩

end

/-! ### Grounded triangles -/

section
open Spec Poisson Topology TimeLoop

/-- The two triangles between grounded sides. -/
abbrev kiteGroundedBCs : List (String × Int × Val ℚ) := [("rmin", 1, .num 0), ("rmax", 2, .num 0)]

abbrev kiteGroundedSolver : Solver ℚ := madeOn 1 (kite false) (kiteShape false) 3 kiteMarks 1 2 0 0

def kiteGrounded : Cfg ℚ ℚ KitePart (Unit × Vec ℚ 2) (List (Vec ℚ 2)) :=
  { kiteCfg with bc := applyVecOn (touches (kite false) kiteMarks) kiteGroundedSolver.bcs }

theorem kiteGrounded_onMeshed :
    OnMeshed kiteGrounded (kite false) (kiteShape false) 3 kiteMarks kiteGroundedSolver (fun q => q.x) id onKite :=
  ⟨rfl, rfl, kite_solves, rfl, by decide, kite_onMeshed.cell⟩

theorem kiteGrounded_goodCfg : GoodCfg kiteGrounded := by
  obtain ⟨a, b, c, d, e⟩ := kite_goodCfg
  exact ⟨a, b, c, d, e⟩

theorem kiteGrounded_goodMesh : GoodMesh kiteGrounded onKite (fun k => k) (3 + 1) 2 := by
  obtain ⟨a, b, -⟩ := kite_goodMesh
  exact ⟨a, b, ⟨fun _ _ => rfl, fun _ _ _ _ h => h, fun _ h => h⟩⟩

/-- Non-vacuity of `C96_energy`: the three electrons between grounded sides, for every number of
steps.  -/
example (n : Nat) {i0 is} (hr : Ideal.run kiteGrounded 2 4 onKite (some kiteInit) [0, 0, 0, 0] n kiteIdeal = .ok (i0, is)) :=
  C96_energy (cfg := kiteGrounded) kiteGrounded_goodCfg kiteGrounded_goodMesh n (some kiteInit) (kite_fresh n) (by simp [kiteState]) (eps := 1) one_pos
    (kite_meshed false) (kite_linked false) (dd := kiteGroundedBCs) rfl rfl (by rfl) kiteGrounded_onMeshed hr

example : kiteView (Ideal.run kiteGrounded 2 4 onKite (some kiteInit) [0, 0, 0, 0] 2 kiteIdeal) = some
    [([(1, -1 / 2, 1), (1, -3 / 4, 1), (1, 1 / 2, 0)], [0, 0, 0, -5 / 16]), ([(1, 5 / 64, 0), (1, 0, 0)], [0, 0, 0, 0]),
     ([(1, 21 / 32, 0), (1, -1 / 2, 1)], [0, 0, 0, -1 / 8])] := by
  decide +kernel

end

/-! ### Mirrors and sample callbacks -/

section
open Spec TimeLoop Mark

/-- Non-vacuity of `C76_runs`: the simulation with a mirror at its left end, for every number of
steps. -/
example (n : Nat) (h : Ideal.run wallCfg 2 4 onSim (some simInit) [0, 0, 0, 0] n simIdeal ≠ .error .allLost) :
    ∃ st', run wallCfg (some simInit) n (simState n) = .ok st' :=
  C76_runs (x := fun i => (i : ℚ)) (N := 3) demoLine_conforming (fun _ => wallBC_wall) (fun _ => wallBC_keepsCell)
    (by decide) (cfg := wallCfg) rfl rfl (fun _ => onSim_of) wall_good wall_mesh n sim_init (sim_fresh n) (fun h => by cases h) (by
      intro gs hg; cases hg; decide) h

/-- Callbacks that leave the particle as it is. -/
def idleCfg : Cfg ℚ ℚ SimPart (Unit × Vec ℚ 1) (List ℚ) :=
  { simCfg [] with
    move := pyMove (le_refl 1) demoLine (fun _ _ st b => .ok (st, b.part)) 6 (1 / 2) (fun _ => -1) simField }

def idleInit : List (String × List SimPart) := [("e", [demoPart (3 / 2) (1 / 8) 1 false])]

theorem idle_good : GoodCfg idleCfg := by
  obtain ⟨h1, h2, h3, h4, h5⟩ := sim_good []
  exact ⟨⟨h1.1, h1.2⟩, h2, h3, h4, h5⟩

theorem idle_mesh : GoodMesh idleCfg onSim (fun k => k) 4 3 := by
  obtain ⟨h1, h2, h3⟩ := sim_mesh []
  exact ⟨h1, h2, h3⟩

/-- Non-vacuity of `C106_run`: a slow electron in the middle of the line; the runs of 1, 2, 3 ... steps
that succeed. -/
example (n : Nat) {i0 is} (hr : Ideal.run idleCfg 2 4 onSim (some idleInit) [0, 0, 0, 0] n simIdeal = .ok (i0, is)) :
    (i0 :: is).IsChain (LeapStep (le_refl 1) (fun _ => true) (fun _ => -1) simField idleCfg 2 4) ∧
    ∃ st', run idleCfg (some idleInit) n (simState n) = .ok st' ∧
      Outcome idleCfg (fun k => k) 3 true [0, 0, 0, 0] (simState n) st' i0 is :=
  C106_run (M := demoLine) (bc := fun _ _ st b => .ok (st, b.part))
    (fun _ _ st call st' q e => by cases e; exact ⟨rfl, rfl, rfl, rfl, rfl⟩)
    (fun _ value st call st' q' e => by cases e; rfl) (cfg := idleCfg) rfl (fun s hs => by cases hs) idle_good idle_mesh
    n (init := some idleInit) (by
      intro gs hgs a ha q hq
      cases hgs
      simp only [idleInit, List.mem_singleton] at ha
      subst ha
      simp only [List.mem_singleton] at hq
      subst hq
      unfold Present InItsCell; decide +kernel) (sim_fresh n) (by decide) (fun h => by cases h) hr

example : kinView (Ideal.run idleCfg 2 4 onSim (some idleInit) [0, 0, 0, 0] 3 simIdeal) =
    some [[(3 / 2, 1 / 8)], [(25 / 16, 1 / 8)], [(5193 / 3200, 193 / 1600)], [(1074449 / 640000, 35849 / 320000)]] := by
  decide +kernel

/-- Non-vacuity of `C106_sphere`: five shells with edges at the cubes of equidistant numbers. -/
example : ∃ ms pm, createRadial (K := ℚ) 5 none (some [("rmin", 1), ("rmax", 2)]) = .ok ms ∧ ms.particle = some pm ∧
    ∀ (time dt qom : ℚ) (E : Part ℚ 1 Nat → Option (Vec ℚ 1)) (st : Unit × Vec ℚ 1) {q : Part ℚ 1 Nat},
      Present (le_refl 1) (lineMesh (Radial.vertex 1 4 (fun x : ℚ => x ^ 3) 5) 5 (onLine 5 pm)) q →
      ∃ st' q' evs, moveCharged (le_refl 1) (lineMesh (Radial.vertex 1 4 (fun x : ℚ => x ^ 3) 5) 5 (onLine 5 pm)) .charged
          (namedBC (acting user1D) [("rmin", 1), ("rmax", 2)] ["electrons", "neutral_H"] "electrons") 100 time dt
            (qom * dt) false E st q = .ok (st', q', evs) ∧
        Bounces 1 4 true false (leap dt qom (E q) (kin q)) (kin q') q'.del := by
  obtain ⟨r, hr⟩ : ∃ r, createRadial (K := ℚ) 5 none (some [("rmin", 1), ("rmax", 2)]) = .ok r := ⟨_, rfl⟩
  obtain ⟨pm, hp, h⟩ := C106_sphere (ρ := Nat) (τ := Unit) (powLike_nat (K := ℚ) (s := 3) (by decide)) (rmin := 1) (rmax := 4)
    (by norm_num) (nr := 5) (by decide) (fo := none) (pd := [("rmin", 1), ("rmax", 2)]) ⟨by unfold IsDict; decide, by decide, by decide⟩ (pa := 1) (pb := 2) (by decide)
    (by decide) hr (species := ["electrons", "neutral_H"]) (sn := "electrons") (by decide)
  exact ⟨r, pm, hr, hp, fun time dt qom E st q hq => h (n := 100) (by decide) time dt qom E st hq⟩

end

end Dt
