import Verif.Props.TimeLoop
import Verif.Props.Straight
import Verif.Model.Simulation
import Verif.Lemmas.Simulation

/-!
# A whole simulation with the Python movers (C73, C74)
-/

set_option linter.unusedSectionVars false

namespace Dt
open TimeLoop
open Spec (LState Stores Pop Ideal Fault lastOf)
variable {K V : Type} [Field K] [LinearOrder K] [IsStrictOrderedRing K] {g p : Nat} {τ ρ φ : Type}

/-- A particle that is where its label says and is not marked for deletion. -/
def Present (h : g ≤ p) (M : Mesh K g) (q : Part K p ρ) : Prop := InItsCell h M q ∧ q.del = false

/-- The Python mover and particles that are present. -/
theorem pyMove_keeps {h : g ≤ p} {M : Mesh K g}
    {bc : String → Int → τ → BCall K g p ρ → Except Err (τ × Part K p ρ)} {maxCross : Nat} {dt : K}
    {qom : String → K} {E : String → φ → Part K p ρ → Option (Vec K p)} {sn : String}
    (hcell : KeepsCell (bc sn)) {Q : Fault → Prop} {f : φ} {c : Int} {t : K}
    (hq : ∀ st q e, Present h M q → moveCharged h M .charged (bc sn) maxCross t dt (qom sn * dt) false
      (E sn f) st q = .error e → Q (.raises e)) :
    Keeps (Present h M) Q (pyMove h M bc maxCross dt qom E sn f c t) := by
  intro st i o b q hp
  unfold pyMove plainAdv
  cases e : moveCharged h M .charged (bc sn) maxCross t dt (qom sn * dt) false (E sn f) st q with
  | error e' =>
    refine ⟨fun _ _ hc => by simp [bind, Except.bind] at hc, fun e2 he => ?_⟩
    simp only [bind, Except.bind, Except.error.injEq] at he
    subst he
    exact hq st q _ hp e
  | ok r =>
    obtain ⟨st', q', evs⟩ := r
    refine ⟨fun st2 y hc => ?_, fun e2 he => by simp [bind, Except.bind, pure, Except.pure] at he⟩
    simp only [bind, Except.bind, pure, Except.pure, Except.ok.injEq, Prod.mk.injEq] at hc
    obtain ⟨-, rfl, hd⟩ := hc
    have hd : q'.del = false := by simpa using hd
    refine ⟨?_, hd⟩
    rcases C25_cell_label hcell (.inl e) with h1 | ⟨h1, -⟩
    · exact h1
    · rw [hd] at h1; cases h1

/-- The sources make particles that are present. -/
def SourcesPresent (h : g ≤ p) (M : Mesh K g) (ss : List (Src K (Part K p ρ) (τ × Vec K p))) : Prop :=
  ∀ s ∈ ss, ∀ count time side side' xs, s.make count time side = .ok (side', xs) → ∀ q ∈ xs, Present h M q

/-- The initial particles are present. -/
def InitPresent (h : g ≤ p) (M : Mesh K g) (init : Option (List (String × List (Part K p ρ)))) : Prop :=
  ∀ gs, init = some gs → ∀ a ∈ gs, ∀ q ∈ a.2, Present h M q

/-- C73.  In a run with the Python movers, after initialization and after every step, every stored
particle of every species is inside the cell its cell index names and is not marked for deletion, if
this is so for the particles that sources and initialization put in.  Any mesh; any fields; any
boundary callbacks that do not write the cell index. -/
theorem C73_in_its_cell {h : g ≤ p} {M : Mesh K g}
    {bc : String → Int → τ → BCall K g p ρ → Except Err (τ × Part K p ρ)} {maxCross : Nat}
    {qom : String → K} {E : String → φ → Part K p ρ → Option (Vec K p)}
    {cfg : Cfg K V (Part K p ρ) (τ × Vec K p) φ} (hmove : cfg.move = pyMove h M bc maxCross cfg.dt qom E)
    (hcell : ∀ sn, KeepsCell (bc sn)) (hsrc : SourcesPresent h M cfg.sources)
    {onMesh : Part K p ρ → Bool} {d : Nat → Nat} {sl D C : Nat}
    (hc : GoodCfg cfg) (hm : GoodMesh cfg onMesh d D C) {z : Species.HRow K} (n : Nat)
    {init : Option (List (String × List (Part K p ρ)))} (hinit : InitPresent h M init)
    {st : State K V (Part K p ρ) (τ × Vec K p) φ} {i : Ideal K V (Part K p ρ) (τ × Vec K p)} {b : List K}
    (hf : Fresh sl D C n z st i b) (hnone : st.writer = none → cfg.partEvery = none)
    {i0 : Ideal K V (Part K p ρ) (τ × Vec K p)} {is : List (Ideal K V (Part K p ρ) (τ × Vec K p))}
    (hr : Ideal.run cfg sl D onMesh init b n i = .ok (i0, is)) :
    (∀ j ∈ i0 :: is, ∀ pop ∈ j.pops, ∀ q ∈ pop.st.items, Present h M q) ∧
    ∃ st', run cfg init n st = .ok st' ∧ Outcome cfg d C init.isSome b st st' i0 is ∧
      ∀ sp ∈ st'.sps, ∃ xs, Stores sp.sap xs ∧ ∀ q ∈ xs, Present h M q := by
  have hgood : Good (Present h M) (fun _ => True) cfg onMesh (i.pops.map (·.name)) (fun _ => True) :=
    ⟨trivial, .inr trivial,
      fun s hs => ⟨.inr trivial, .inr trivial, trivial, fun count time side =>
        ⟨fun side' xs e => hsrc s hs _ _ _ _ _ e, fun _ _ => trivial⟩⟩,
      fun sn _ _ f c t => by rw [hmove]; exact pyMove_keeps (hcell sn) (fun _ _ _ _ _ => trivial)⟩
  have h1 := run_res hgood sl D n (init := init)
    (fun gs hgs a ha => ⟨.inr trivial, hinit gs hgs a ha⟩) b (i := i)
    ⟨fun pop hp q hq => (by rw [hf.empty pop hp] at hq; cases hq), rfl, fun _ _ _ => trivial⟩
    (fun pop hp => by rw [hf.empty pop hp])
  rw [hr] at h1
  have key := C68_run hc hm n init hf hnone
  rw [hr] at key
  obtain ⟨hlen, st', e, ho⟩ := key
  have hlast : ∀ pop ∈ (lastOf i0 is).pops, ∀ q ∈ pop.st.items, Present h M q := by
    have : lastOf i0 is ∈ i0 :: is := by
      unfold lastOf
      cases hl : is.getLast? with
      | none => simp
      | some j =>
        simp only [Option.getD_some, List.mem_cons]
        exact .inr (List.mem_of_getLast? hl)
    exact fun pop hp => (h1 _ this).all pop hp
  refine ⟨fun j hj pop hp => (h1 j hj).all pop hp, st', e, ho, ?_⟩
  intro sp hsp
  have hpart := ho.particles
  obtain ⟨pop, hpop, hrel⟩ : ∃ pop ∈ (lastOf i0 is).pops, Stores sp.sap pop.st.items := by
    clear * - hpart hsp
    generalize (lastOf i0 is).pops = ps at hpart ⊢
    generalize st'.sps = sps at hpart hsp
    induction hpart with
    | nil => cases hsp
    | @cons a q as qs h1 _ ih =>
      rcases List.mem_cons.1 hsp with rfl | hs
      · exact ⟨q, by simp, h1.2⟩
      · obtain ⟨pop, h2, h3⟩ := ih hs
        exact ⟨pop, by simp [h2], h3⟩
  exact ⟨_, hrel, hlast pop hpop⟩

/-- What C74 requires of the sources: they act without errors, for species that exist. -/
def SourcesGood (names : List String) (ss : List (Src K (Part K p ρ) (τ × Vec K p))) : Prop :=
  ∀ s ∈ ss, s.interval ≠ 0 ∧ s.species ∈ names ∧
    ∀ count time side, ∃ r, s.make count time side = .ok r

/-- The ways in which such a run can end early. -/
theorem run_faults {h : g ≤ p} {M : Mesh K g} (hM : M.Conforming)
    {bc : String → Int → τ → BCall K g p ρ → Except Err (τ × Part K p ρ)} {maxCross : Nat}
    {qom : String → K} {E : String → φ → Part K p ρ → Option (Vec K p)}
    {cfg : Cfg K V (Part K p ρ) (τ × Vec K p) φ} (hmove : cfg.move = pyMove h M bc maxCross cfg.dt qom E)
    (hcell : ∀ sn, KeepsCell (bc sn))
    (hsrc : SourcesPresent h M cfg.sources) {onMesh : Part K p ρ → Bool}
    (hon : ∀ q, Present h M q → onMesh q = true) {sl D : Nat} (n : Nat)
    {init : Option (List (String × List (Part K p ρ)))} (hinit : InitPresent h M init)
    {i : Ideal K V (Part K p ρ) (τ × Vec K p)} {b : List K}
    (hbc : ∀ sn ∈ i.pops.map (·.name), GoodBC h M True (bc sn)) (hempty : ∀ pop ∈ i.pops, pop.st = ⟨[], false⟩)
    (hsg : SourcesGood (i.pops.map (·.name)) cfg.sources)
    (hig : ∀ gs, init = some gs → ∀ a ∈ gs, a.1 ∈ i.pops.map (·.name)) {f : Fault}
    (hr : Ideal.run cfg sl D onMesh init b n i = .error f) :
    f = .allLost ∨ f = .raises .assertion ∧ cfg.sources ≠ [] ∨ f = .raises .tooMany ∧
      ∃ sn fld st q time, sn ∈ i.pops.map (·.name) ∧ Present h M q ∧ moveCharged h M .charged (bc sn) maxCross time cfg.dt
        (qom sn * cfg.dt) false (E sn fld) st q = .error .tooMany := by
  have hgood : Good (Present h M) (fun f => f = .allLost ∨ f = .raises .assertion ∧ cfg.sources ≠ [] ∨
      f = .raises .tooMany ∧
      ∃ sn fld st q time, sn ∈ i.pops.map (·.name) ∧ Present h M q ∧ moveCharged h M .charged (bc sn) maxCross time cfg.dt
        (qom sn * cfg.dt) false (E sn fld) st q = .error .tooMany)
      cfg onMesh (i.pops.map (·.name)) (fun _ => True) := by
    refine ⟨.inl rfl, .inl hon, fun s hs => ⟨.inl (hsg s hs).1, .inl (hsg s hs).2.1,
      .inr (.inl ⟨rfl, List.ne_nil_of_mem hs⟩), fun count time side =>
        ⟨fun side' xs e => hsrc s hs _ _ _ _ _ e, fun e he => ?_⟩⟩, fun sn hsn _ fld c t => ?_⟩
    · obtain ⟨r, hr⟩ := (hsg s hs).2.2 count time side
      rw [hr] at he; cases he
    · rw [hmove]
      refine pyMove_keeps (hcell sn) (fun st q e hq he => .inr (.inr ?_))
      rcases C28_no_error hM (v := .charged) rfl (by simpa [Variant.charged] using hbc sn hsn) maxCross t cfg.dt
        (qom sn * cfg.dt) false (E sn fld) st hq.1 with ⟨r, hr⟩ | ⟨hr, -⟩
      · rw [hr] at he; cases he
      · rw [hr] at he
        cases he
        exact ⟨rfl, sn, fld, st, q, t, hsn, hq, hr⟩
  have h1 := run_res hgood sl D n (init := init)
    (fun gs hgs a ha => ⟨.inl (hig gs hgs a ha), hinit gs hgs a ha⟩) b (i := i)
    ⟨fun pop hp q hq => (by rw [hempty pop hp] at hq; cases hq), rfl, fun _ _ _ => trivial⟩
    (fun pop hp => by rw [hempty pop hp])
  rw [hr] at h1
  exact h1

/-- C74.  On a conforming mesh with callbacks that delete or turn back, a run whose sources and initial
particles are in order can only end early by exceeding the limit on crossings in a step or by the
assertion of a source that appends to a container (C70), unless a species loses all its particles in
one step (C14).  In particular no particle is ever looked up outside the mesh. -/
theorem C74_only_errors {h : g ≤ p} {M : Mesh K g} (hM : M.Conforming)
    {bc : String → Int → τ → BCall K g p ρ → Except Err (τ × Part K p ρ)} {maxCross : Nat}
    {qom : String → K} {E : String → φ → Part K p ρ → Option (Vec K p)}
    {cfg : Cfg K V (Part K p ρ) (τ × Vec K p) φ} (hmove : cfg.move = pyMove h M bc maxCross cfg.dt qom E)
    (hcell : ∀ sn, KeepsCell (bc sn)) (hbc : ∀ sn, GoodBC h M True (bc sn))
    (hsrc : SourcesPresent h M cfg.sources) {onMesh : Part K p ρ → Bool}
    (hon : ∀ q, Present h M q → onMesh q = true) {d : Nat → Nat} {sl D C : Nat}
    (hc : GoodCfg cfg) (hm : GoodMesh cfg onMesh d D C) {z : Species.HRow K} (n : Nat)
    {init : Option (List (String × List (Part K p ρ)))} (hinit : InitPresent h M init)
    {st : State K V (Part K p ρ) (τ × Vec K p) φ} {i : Ideal K V (Part K p ρ) (τ × Vec K p)} {b : List K}
    (hf : Fresh sl D C n z st i b) (hnone : st.writer = none → cfg.partEvery = none)
    (hsg : SourcesGood (i.pops.map (·.name)) cfg.sources)
    (hig : ∀ gs, init = some gs → ∀ a ∈ gs, a.1 ∈ i.pops.map (·.name))
    (hlost : Ideal.run cfg sl D onMesh init b n i ≠ .error .allLost) :
    (∃ st', run cfg init n st = .ok st') ∨ run cfg init n st = .error .tooMany ∨
      (cfg.sources ≠ [] ∧ run cfg init n st = .error .assertion) := by
  have key := C68_run hc hm n init hf hnone
  cases hr : Ideal.run cfg sl D onMesh init b n i with
  | ok r =>
    rw [hr] at key
    obtain ⟨_, st', e, _⟩ := key
    exact .inl ⟨st', e⟩
  | error f =>
    rcases run_faults hM hmove hcell hsrc hon n hinit (fun sn _ => hbc sn) hf.empty hsg hig hr with
      rfl | ⟨rfl, hs⟩ | ⟨rfl, -⟩
    · exact absurd hr hlost
    · rw [hr] at key; exact .inr (.inr ⟨hs, key⟩)
    · rw [hr] at key; exact .inr (.inl key)

/-- C74 on a one-dimensional mesh with absorbing ends, at most as many cells as the crossing limit, and
no sources: the run ends normally, whatever the fields, charges, masses, the time step and the initial
particles are, unless a species loses all its particles in one step. -/
theorem C74_line_runs {x : Nat → K} {N : Nat} {marker : Int → Int} {h : 1 ≤ p}
    (hM : (lineMesh x N marker).Conforming)
    {bc : String → Int → τ → BCall K 1 p ρ → Except Err (τ × Part K p ρ)} {maxCross : Nat} (hN : N ≤ maxCross)
    {qom : String → K} {E : String → φ → Part K p ρ → Option (Vec K p)}
    {cfg : Cfg K V (Part K p ρ) (τ × Vec K p) φ}
    (hmove : cfg.move = pyMove h (lineMesh x N marker) bc maxCross cfg.dt qom E)
    (hcell : ∀ sn, KeepsCell (bc sn)) (hbc : ∀ sn, GoodBC h (lineMesh x N marker) True (bc sn))
    (ha : ∀ sn, Absorbs (lineMesh x N marker) (bc sn)) (hsrc : cfg.sources = [])
    {onMesh : Part K p ρ → Bool} (hon : ∀ q, Present h (lineMesh x N marker) q → onMesh q = true)
    {d : Nat → Nat} {sl D C : Nat}
    (hc : GoodCfg cfg) (hm : GoodMesh cfg onMesh d D C) {z : Species.HRow K} (n : Nat)
    {init : Option (List (String × List (Part K p ρ)))} (hinit : InitPresent h (lineMesh x N marker) init)
    {st : State K V (Part K p ρ) (τ × Vec K p) φ} {i : Ideal K V (Part K p ρ) (τ × Vec K p)} {b : List K}
    (hf : Fresh sl D C n z st i b) (hnone : st.writer = none → cfg.partEvery = none)
    (hig : ∀ gs, init = some gs → ∀ a ∈ gs, a.1 ∈ i.pops.map (·.name))
    (hlost : Ideal.run cfg sl D onMesh init b n i ≠ .error .allLost) :
    ∃ st', run cfg init n st = .ok st' := by
  have key := C68_run hc hm n init hf hnone
  cases hr : Ideal.run cfg sl D onMesh init b n i with
  | ok r =>
    rw [hr] at key
    obtain ⟨_, st', e, _⟩ := key
    exact ⟨st', e⟩
  | error f =>
    rcases run_faults hM hmove hcell (by rw [hsrc]; intro s hs; cases hs) hon n hinit (fun sn _ => hbc sn) hf.empty
      (by rw [hsrc]; intro s hs; cases hs) hig hr with rfl | ⟨rfl, hs⟩ | ⟨rfl, sn, fld, side, q, t, -, hq, he⟩
    · exact absurd hr hlost
    · exact absurd hsrc hs
    · obtain ⟨r, hr⟩ := C26_line_no_error hM (v := .charged) rfl (by simpa [Variant.charged] using hbc sn)
        (ha sn) hN t cfg.dt (qom sn * cfg.dt) (E sn fld) side hq.1
      rw [hr] at he; cases he

/-! ### A concrete simulation: three cells, absorbing ends -/

section Demo

/-- The particle type of the example: one coordinate, `rest` is the weight. -/
abbrev SimPart := Part ℚ 1 Nat

/-- The potential is linear in each cell; the field is minus its slope in the cell of the particle. -/
def simField (_ : String) (phi : List ℚ) (q : SimPart) : Option (Vec ℚ 1) :=
  some (fun _ => phi.getD q.cell.toNat 0 - phi.getD (q.cell.toNat + 1) 0)

def simCfg (sources : List (Src ℚ SimPart (Unit × Vec ℚ 1))) :
    Cfg ℚ ℚ SimPart (Unit × Vec ℚ 1) (List ℚ) where
  dt := 1 / 2
  move := pyMove (le_refl 1) demoLine (fun _ => sinkBC) 3 (1 / 2) (fun _ => -1) simField
  sources := sources
  attrs := [⟨"x", .field (fun q => q.x 0) true⟩, ⟨"species_index", .speciesIndex⟩]
  junk := 0
  partEvery := some 2
  cellEvery := some 3
  fieldEvery := some 1
  quantities := [.count]
  vel := []
  A := ⟨fun q => q.cell.toNat, fun q => (q.rest : ℚ)⟩
  SD := ⟨fun c => [c, c + 1], fun q => [(q.cell.toNat : ℚ) + 1 - q.x 0, q.x 0 - q.cell.toNat]⟩
  SC := ⟨fun c => [c], fun _ => [1]⟩
  vol := fun _ => 1
  ncell := 3
  bc := fun v => v
  solve := fun v => v.map (· / 100)
  factor := none
  fieldOf := fun v => v

def simState (n : Nat) : State ℚ ℚ SimPart (Unit × Vec ℚ 1) (List ℚ) where
  count := 0
  time := 0
  sps := [⟨"e", SAP.new 2 (demoPart 0 0 0 false), -1, 1, 1, [0, 0, 0, 0], [0, 0, 0]⟩]
  side := ((), ![0])
  field := []
  solver := ⟨[0, 0, 0, 0], [0, 0, 0, 0], [0, 0, 0, 0]⟩
  writer := some (Output.newWriter 2 2 0)
  hist := some ⟨List.replicate (n + 1) ⟨0, 0, []⟩, 0, 1⟩
  phiLog := []
  cellLog := []

def simIdeal : Ideal ℚ ℚ SimPart (Unit × Vec ℚ 1) :=
  ⟨0, 0, [⟨"e", -1, 1, 1, ⟨[], false⟩⟩], ((), ![0]), []⟩

/-- Three electrons, one of them fast. -/
def simInit : List (String × List SimPart) :=
  [("e", [demoPart (1 / 2) 1 0 false, demoPart (3 / 2) 9 1 false, demoPart (5 / 2) (-2) 2 false])]

/-- One electron per step. -/
def simSource : Src ℚ SimPart (Unit × Vec ℚ 1) :=
  ⟨"left", "e", 3, fun _ _ side => .ok (side, [demoPart (1 / 4) 1 0 false])⟩

def onSim (q : SimPart) : Bool := decide (0 ≤ q.cell ∧ q.cell < 3)

theorem onSim_of {q : SimPart} (hq : Present (le_refl 1) demoLine q) : onSim q = true := by
  obtain ⟨c, hc, -⟩ := hq.1.get demoLine_conforming
  obtain ⟨i, hi, hiN, -⟩ := lineMesh_cell hc
  simp only [onSim, decide_eq_true_eq]
  omega

theorem sim_good (ss : List (Src ℚ SimPart (Unit × Vec ℚ 1))) : GoodCfg (simCfg ss) := by
  refine ⟨⟨?_, by simp [simCfg]⟩, by simp [simCfg], by simp [simCfg], by simp [simCfg], by simp [simCfg]⟩
  intro a ha
  simp only [simCfg, List.mem_cons, List.not_mem_nil, or_false] at ha
  rcases ha with rfl | rfl <;> rfl

theorem sim_mesh (ss : List (Src ℚ SimPart (Unit × Vec ℚ 1))) :
    GoodMesh (simCfg ss) onSim (fun k => k) 4 3 := by
  refine ⟨?_, ?_, ⟨fun k _ => rfl, fun _ _ _ _ h => h, fun _ h => h⟩⟩
  · intro q hq
    simp only [onSim, decide_eq_true_eq] at hq
    refine ⟨?_, ?_, rfl⟩
    · intro i hi
      simp only [simCfg, List.mem_cons, List.not_mem_nil, or_false] at hi
      omega
    · simp [simCfg]
  · intro q hq
    simp only [onSim, decide_eq_true_eq] at hq
    simp only [simCfg]
    omega

theorem sim_fresh (n : Nat) : Fresh 2 4 3 n ⟨0, 0, []⟩ (simState n) simIdeal [0, 0, 0, 0] := by
  refine ⟨rfl, rfl, rfl, rfl, rfl, ?_, ?_, ?_, ?_, rfl, rfl⟩
  · exact .cons ⟨rfl, rfl, rfl, rfl, ⟨SAP.Reachable.new 2 _ (by decide), SAP.new_sim 2 _ (by decide), rfl⟩,
      rfl, rfl⟩ .nil
  · intro p hp
    simp only [simIdeal, List.mem_singleton] at hp
    rw [hp]
  · exact Or.inr ⟨_, rfl, newWriter_ready 2 2 (by decide) 0, rfl, by simp [Output.newWriter, simIdeal]⟩
  · simp [HistIs, simState]

theorem sinkBC_keepsCell : KeepsCell sinkBC := by
  intro value st call st' q' e
  simp only [sinkBC, bcAbsorb, Except.ok.injEq, Prod.mk.injEq] at e
  rw [← e.2]

theorem sinkBC_good' : GoodBC (le_refl 1) demoLine True sinkBC := by
  simpa [Variant.charged] using sinkBC_good

theorem sim_init : InitPresent (le_refl 1) demoLine (some simInit) := by
  intro gs hgs a ha q hq
  cases hgs
  simp only [simInit, List.mem_singleton] at ha
  subst ha
  simp only [List.mem_cons, List.not_mem_nil, or_false] at hq
  rcases hq with rfl | rfl | rfl <;>
  exact ⟨by unfold InItsCell; decide +kernel, rfl⟩

theorem sim_sources : SourcesPresent (le_refl 1) demoLine [simSource] := by
  intro s hs count time side side' xs e q hq
  simp only [List.mem_singleton] at hs
  subst hs
  simp only [simSource, Except.ok.injEq, Prod.mk.injEq] at e
  rw [← e.2] at hq
  simp only [List.mem_singleton] at hq
  subst hq
  exact ⟨by unfold InItsCell; decide +kernel, rfl⟩

abbrev simRun (ss : List (Src ℚ SimPart (Unit × Vec ℚ 1))) (n : Nat) :
    Except Fault (Ideal ℚ ℚ SimPart (Unit × Vec ℚ 1) × List (Ideal ℚ ℚ SimPart (Unit × Vec ℚ 1))) :=
  Ideal.run (simCfg ss) 2 4 onSim (some simInit) [0, 0, 0, 0] n simIdeal

/-- Cells and crossings of the particles in the states of a simulation. -/
def simView (r : Except Fault (Ideal ℚ ℚ SimPart (Unit × Vec ℚ 1) × List (Ideal ℚ ℚ SimPart (Unit × Vec ℚ 1)))) :
    Option (List (List (Int × Nat))) :=
  r.toOption.map (fun r => (r.1 :: r.2).map (fun i => i.pops.flatMap (fun p => p.st.items.map
    (fun q => (q.cell, q.crossings)))))

-- The fast electron leaves in the first step; in the third one leaves and the source adds one.
example : simView (simRun [simSource] 3) =
    some [[(0, 0), (1, 0), (2, 0)], [(0, 0), (1, 1)], [(1, 1), (0, 1)], [(1, 0), (0, 0)]] := by
  decide +kernel

theorem sim_ok (ss : List (Src ℚ SimPart (Unit × Vec ℚ 1))) (n : Nat)
    (h : (simView (simRun ss n)).isSome = true) : ∃ r, simRun ss n = .ok r := by
  cases e : simRun ss n with
  | ok r => exact ⟨r, rfl⟩
  | error f => rw [e] at h; cases h

-- C73 applies to this run.
example : ∃ i0 is st', simRun [simSource] 3 = .ok (i0, is) ∧
    run (simCfg [simSource]) (some simInit) 3 (simState 3) = .ok st' ∧
    ∀ sp ∈ st'.sps, ∃ xs, Stores sp.sap xs ∧ ∀ q ∈ xs, Present (le_refl 1) demoLine q := by
  obtain ⟨⟨i0, is⟩, hr⟩ := sim_ok [simSource] 3 (by decide +kernel)
  obtain ⟨-, st', e, -, h⟩ := C73_in_its_cell (cfg := simCfg [simSource]) rfl (fun _ => sinkBC_keepsCell)
    sim_sources (sim_good _) (sim_mesh _) 3 sim_init (sim_fresh 3) (fun h => by cases h) hr
  exact ⟨i0, is, st', hr, e, h⟩

-- C74 applies to it; without the source it runs to the end.
example : (∃ st', run (simCfg [simSource]) (some simInit) 3 (simState 3) = .ok st') ∨
    run (simCfg [simSource]) (some simInit) 3 (simState 3) = .error .tooMany ∨
    ((simCfg [simSource]).sources ≠ [] ∧
      run (simCfg [simSource]) (some simInit) 3 (simState 3) = .error .assertion) := by
  obtain ⟨r, hr⟩ := sim_ok [simSource] 3 (by decide +kernel)
  refine C74_only_errors demoLine_conforming (cfg := simCfg [simSource]) rfl (fun _ => sinkBC_keepsCell)
    (fun _ => sinkBC_good') sim_sources (fun q => onSim_of) (sim_good _) (sim_mesh _) 3 sim_init (sim_fresh 3)
    (fun h => by cases h) ?_ ?_ ?_
  · intro s hs
    simp only [simCfg, List.mem_singleton] at hs
    subst hs
    exact ⟨by decide, by decide, fun _ _ side => ⟨_, rfl⟩⟩
  · intro gs hgs a ha
    cases hgs
    simp only [simInit, List.mem_singleton] at ha
    subst ha
    decide
  · rw [show Ideal.run (simCfg [simSource]) 2 4 onSim (some simInit) [0, 0, 0, 0] 3 simIdeal = .ok r from hr]
    simp

example : ∃ st', run (simCfg []) (some simInit) 2 (simState 2) = .ok st' := by
  obtain ⟨r, hr⟩ := sim_ok [] 2 (by decide +kernel)
  refine C74_line_runs (marker := fun k => if k = 0 then 1 else if k = 3 then 2 else 0)
    demoLine_conforming (cfg := simCfg []) (le_refl 3) rfl
    (fun _ => sinkBC_keepsCell) (fun _ => sinkBC_good') (fun _ => sinkBC_absorbs) rfl (fun q => onSim_of)
    (sim_good _) (sim_mesh _) 2 sim_init (sim_fresh 2) (fun h => by cases h) ?_ ?_
  · intro gs hgs a ha
    cases hgs
    simp only [simInit, List.mem_singleton] at ha
    subst ha
    decide
  · rw [show Ideal.run (simCfg []) 2 4 onSim (some simInit) [0, 0, 0, 0] 2 simIdeal = .ok r from hr]
    simp

end Demo

end Dt
