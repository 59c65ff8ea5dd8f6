import Verif.Model.RoundedTwin
import Verif.Props.RoundedTwin
import Verif.Props.CppLoop

/-!
# Whole programs agree to the last bit (C135)
-/

set_option linter.unusedSectionVars false

namespace Dt
open TimeLoop (Cfg Src GoodMesh GoodCfg)
open Spec (Ideal Sim IsRounding IsCRounding SameMachine SameTest)
open CppLoop (GoodEvery)
variable {K V φ : Type} [Field K] [LinearOrder K] [IsStrictOrderedRing K] {g p : Nat} {τ ρ : Type}

theorem CppRounded.withMove_twin {C : CArith K} {A : Arith K g} (hC : IsCRounding C) (hA : IsRounding A) (hS : SameMachine C A)
    {cm : CppMesh K} {M : Mesh K g} (ht : cm.Twin M) {h : g ≤ p} (hI : SameTest C A h cm M) {L : Layout K p} (hL : L.Right)
    {bcC bcP : String → Int → τ → BCall K g p ρ → Except Err (τ × Part K p ρ)} (hbc : ∀ sn v st c, SameOk (bcC sn v st c) (bcP sn v st c))
    {m : Nat} {qom : String → K} {E : String → φ → Part K p ρ → Option (Vec K p)} {cfg : Cfg K V (Part K p ρ) (τ × Vec K p) φ}
    (hmove : cfg.move = Rounded.pyMove A h M bcP m cfg.dt qom E) :
    TwinCfg (fun (a : (τ × Vec K p) × Scratch K) b => a.1 = b) (withMove cfg (cppMove C h L cm bcC m cfg.dt qom E)) cfg := by
  refine ⟨rfl, ?_, ?_, rfl, rfl, rfl, rfl, rfl, rfl, rfl, rfl, rfl⟩
  · intro sn f c t st1 st2 i o ic x hR
    rw [hmove]
    have := RoundedTwin.plain_sim hC hA hS ht h hI hL (hbc sn) m t cfg.dt (A.fl (qom sn * cfg.dt)) (E sn f) st1 st2 i o ic x hR
    unfold withMove cppMove Rounded.pyMove
    rw [hS.fl]
    exact this
  · simp only [withMove, List.forall₂_map_left_iff, List.forall₂_same]
    intro s _
    refine ⟨rfl, rfl, ?_⟩
    rintro c t ⟨st1, sc⟩ _ rfl
    unfold besideScratch
    dsimp only
    cases s.make c t st1 with
    | error e => exact .err _ _
    | ok r => exact Sim.ok (R := fun (a : (τ × Vec K p) × Scratch K) b => a.1 = b) rfl _

/-- **C135 (whole programs).** The Python program and the compiled program, with movers that round every operation in the same way, are
started with fresh containers on the same mesh; sources, densities and solver are the same.  If the simulation on lists goes through
states without an exception, without losing all particles of a species in one step and without `2^32` particles of a species, both
programs end normally, at the same step and time, with the same particles in the same order in every species, the same potential and
the same potential file, to the last bit. -/
theorem C135_run {C : CArith K} {A : Arith K g} (hC : IsCRounding C) (hA : IsRounding A) (hS : SameMachine C A)
    {cm : CppMesh K} {M : Mesh K g} (ht : cm.Twin M) {h : g ≤ p} (hI : SameTest C A h cm M) {L : Layout K p} (hL : L.Right)
    {bcC bcP : String → Int → τ → BCall K g p ρ → Except Err (τ × Part K p ρ)} (hbc : ∀ sn v st c, SameOk (bcC sn v st c) (bcP sn v st c))
    {m : Nat} {qom : String → K} {E : String → φ → Part K p ρ → Option (Vec K p)} {cfg : Cfg K V (Part K p ρ) (τ × Vec K p) φ}
    (hmove : cfg.move = Rounded.pyMove A h M bcP m cfg.dt qom E)
    {onMesh : Part K p ρ → Bool} {d : Nat → Nat} {sl D N : Nat} (h2 : 2 ≤ sl) (hc : GoodCfg cfg) (hm : GoodMesh cfg onMesh d D N)
    {skip : Int} (hskip : skip ≠ 0) (n : Nat) (init : Option (List (String × List (Part K p ρ))))
    {st1 : CppLoop.State K V (Part K p ρ) ((τ × Vec K p) × Scratch K) φ} {i1 : Ideal K V (Part K p ρ) ((τ × Vec K p) × Scratch K)}
    {b : List K} (h1 : CppLoop.Fresh sl D N skip st1 i1 b) (hnone1 : st1.file = none → cfg.partEvery = none) {z : Species.HRow K}
    {st2 : TimeLoop.State K V (Part K p ρ) (τ × Vec K p) φ} {i2 : Ideal K V (Part K p ρ) (τ × Vec K p)}
    (h3 : TimeLoop.Fresh sl D N n z st2 i2 b) (hnone2 : st2.writer = none → cfg.partEvery = none)
    (hi : SameIdeal (fun a b => a.1 = b) i1 i2) {i0 : Ideal K V (Part K p ρ) (τ × Vec K p)} {is : List (Ideal K V (Part K p ρ) (τ × Vec K p))}
    (hp : Ideal.run cfg sl D onMesh init b n i2 = .ok (i0, is)) (hsm : ∀ j ∈ i0 :: is, SmallIdeal j) :
    ∃ st1' st2', CppLoop.run (CppRounded.withMove cfg (CppRounded.cppMove C h L cm bcC m cfg.dt qom E)) init n st1 = .ok st1' ∧
      TimeLoop.run cfg init n st2 = .ok st2' ∧ st1'.count = st2'.count ∧ st1'.time = st2'.time ∧ st1'.side.1 = st2'.side ∧
      List.Forall₂ (fun sp1 sp2 => sp1.name = sp2.name ∧ ∃ xs, CStores sp1.sap xs ∧ Spec.Stores sp2.sap xs) st1'.sps st2'.sps ∧
      st1'.solver.phi = st2'.solver.phi ∧ st1'.phiLog = st2'.phiLog := by
  obtain ⟨m1, m2, m3⟩ := hm
  obtain ⟨a1, a2, e1, e2, k1, k2, k3, k4, k5, k6, -⟩ := C109_programs_agree
    (CppRounded.withMove_twin hC hA hS ht hI hL hbc hmove) h2 ⟨hc.part, hc.cell, hc.field⟩ ⟨m1, m2, m3⟩ hskip n init h1 hnone1 hc
    ⟨m1, m2, m3⟩ h3 hnone2 hi hp hsm
  exact ⟨a1, a2, e1, e2, k1, k2, k3, k4, k5, k6⟩

/-- The simulation `coarseCfg` and its compiled form end with the same particles. -/
example : ∃ st1' st2', CppLoop.run (CppRounded.withMove coarseCfg (CppRounded.cppMove coarseC (le_refl 1) layoutX demoLineCpp
      (fun _ => sinkBC) 3 (1 / 2) (fun _ => -1) simField)) (some simInit) 3 cppSimState = .ok st1' ∧
    TimeLoop.run coarseCfg (some simInit) 3 (simState 3) = .ok st2' ∧
    List.Forall₂ (fun sp1 sp2 => sp1.name = sp2.name ∧ ∃ xs, CStores sp1.sap xs ∧ Spec.Stores sp2.sap xs) st1'.sps st2'.sps := by
  have hsm : ((Ideal.run coarseCfg 2 4 onSim (some simInit) [0, 0, 0, 0] 3 simIdeal).toOption.map (fun r => (r.1 :: r.2).all (fun j =>
    j.pops.all (fun p => decide (p.st.items.length < 4294967296))))) = some true := by decide +kernel
  cases hr : Ideal.run coarseCfg 2 4 onSim (some simInit) [0, 0, 0, 0] 3 simIdeal with
  | error x => rw [hr] at hsm; cases hsm
  | ok r =>
    rw [hr] at hsm
    simp only [Except.toOption, Option.map_some, Option.some.injEq, List.all_eq_true] at hsm
    obtain ⟨st1', st2', e1, e2, -, -, -, k, -⟩ := C135_run (cfg := coarseCfg) (i0 := r.1) (is := r.2) coarseC_rounding coarse_rounding coarse_same demoLineCpp_twin
      (coarse_test demoLineCpp_twin) C66_layouts.1 (bcC := fun _ => sinkBC) (fun _ _ _ _ _ => Iff.rfl) rfl (le_refl 2) coarse_good coarse_mesh
      (skip := 2) (by decide) 3 (some simInit) cppSim_fresh (by simp [cppSimState]) (sim_fresh 3) (fun h => by cases h)
      ⟨rfl, rfl, rfl, rfl, rfl⟩ hr (fun j hj => sim_small j (List.all_eq_true.2 (hsm j hj)))
    exact ⟨st1', st2', e1, e2, k⟩

end Dt
