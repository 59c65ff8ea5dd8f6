import Verif.Props.RectBound

/-!
# A whole simulation on a rectangle: `C85_run`, `C86_run` and `C86_neutral` applied

The rectangle from (0, 0) to (3, 2) with 3 times 2 boxes, diagonals like a chess board.  The field at a
particle is proportional to the total charge, one ion is made in every second step.
-/

namespace Dt
open TimeLoop Mark Spec.Mark Rect
open Spec (LState Stores Pop Ideal Fault lastOf)

abbrev BoxPart := Part ℚ 2 Nat

def boxPart (x y ux uy : ℚ) (cell : Int) : BoxPart := ⟨![x, y], ![x, y], ![ux, uy], cell, false, false, 0, 7⟩

def boxDiag (i j : Nat) : Bool := (i + j) % 2 == 0

/-- The particle marker of the mesh. -/
def boxMarker : RFacet ℚ → Int :=
  match createXY (K := ℚ) 0 3 0 2 3 2 none (some boxDict) none with
  | .ok ms => ms.particle.getD (fun _ => 0)
  | .error _ => fun _ => 0

def boxTri : Mesh ℚ 2 := boxMesh 0 3 0 2 3 2 boxDiag boxMarker

/-- All species are deleted at all sides. -/
def sinkCB : Callbacks (Unit × BCall ℚ 2 2 Nat → Except Err (Unit × BoxPart)) := fun s =>
  if s = "default_bc" then some (fun a => bcAbsorb a.1 a.2) else none

/-- The simulation, with the callbacks `cb`. -/
def boxCfg (cb : Callbacks (Unit × BCall ℚ 2 2 Nat → Except Err (Unit × BoxPart))) :
    Cfg ℚ ℚ BoxPart (Unit × Vec ℚ 2) ℚ where
  dt := 1 / 2
  move := pyMove (le_refl 2) boxTri (namedBC cb boxDict ["H", "He"]) 18 (1 / 2)
    (fun sn => if sn = "H" then 1 else 1 / 4) (fun _ f _ => some ![f, 1])
  sources := [⟨"inflow", "H", 2, fun _ _ s => .ok (s, [boxPart (1 / 4) (1 / 8) 1 0 0])⟩]
  attrs := [⟨"x", .field (fun q => q.x 0) true⟩, ⟨"species_index", .speciesIndex⟩]
  junk := 0
  partEvery := some 2
  cellEvery := some 3
  fieldEvery := some 1
  quantities := [.count]
  vel := []
  A := ⟨fun q => q.cell.toNat, fun _ => 1 / 4⟩
  SD := ⟨fun _ => [0], fun _ => [1]⟩
  SC := ⟨fun c => [c], fun _ => [1]⟩
  vol := fun _ => 1 / 2
  ncell := 12
  bc := id
  solve := id
  factor := none
  fieldOf := fun phi => phi.getD 0 0

def boxState (n : Nat) : State ℚ ℚ BoxPart (Unit × Vec ℚ 2) ℚ where
  count := 0
  time := 0
  sps := [⟨"H", SAP.new 2 (boxPart 0 0 0 0 0), 1, 1, 1, [0], List.replicate 12 0⟩,
    ⟨"He", SAP.new 2 (boxPart 0 0 0 0 0), 1, 4, 1, [0], List.replicate 12 0⟩]
  side := ((), ![0, 0])
  field := 0
  solver := ⟨[0], [0], [0]⟩
  writer := some (Output.newWriter 2 2 0)
  hist := some ⟨List.replicate (n + 1) ⟨0, 0, []⟩, 0, 1⟩
  phiLog := []
  cellLog := []

def boxIdeal : Ideal ℚ ℚ BoxPart (Unit × Vec ℚ 2) :=
  ⟨0, 0, [⟨"H", 1, 1, 1, ⟨[], false⟩⟩, ⟨"He", 1, 4, 1, ⟨[], false⟩⟩], ((), ![0, 0]), []⟩

def boxInit : List (String × List BoxPart) :=
  [("H", [boxPart (1 / 2) (1 / 4) (-2) 0 0, boxPart (5 / 2) 1 2 0 5, boxPart (1 / 2) (1 / 4) 0 1 0]), ("He", [boxPart (1 / 2) (1 / 4) 1 0 0])]

def onBox (q : BoxPart) : Bool := decide (0 ≤ q.cell ∧ q.cell < 12)

abbrev boxRun (cb : Callbacks (Unit × BCall ℚ 2 2 Nat → Except Err (Unit × BoxPart))) (n : Nat) :=
  Ideal.run (boxCfg cb) 2 1 onBox (some boxInit) [0] n boxIdeal

/-! ### The hypotheses -/

theorem box_created : createXY (K := ℚ) 0 3 0 2 3 2 none (some boxDict) none = .ok ⟨none, some boxMarker⟩ := by
  obtain ⟨pm, e, -⟩ := C82_rectangle (K := ℚ) (xmin := 0) (xmax := 3) (ymin := 0) (ymax := 2) (by norm_num) (by norm_num) (nx := 3) (ny := 2)
    (by norm_num) (by norm_num) (d := boxDict) (by unfold IsDict; decide) (t1 := 1) (t2 := 2) (t3 := 4) (t4 := 8)
    (by decide) (by decide) (by decide) (by decide) (by decide) (by decide) (by decide) (by decide) (by decide) (by decide) (by decide)
  have : boxMarker = pm := by unfold boxMarker; rw [e]; rfl
  rw [this, e]

theorem box_tags : GoodTags boxDict := ⟨by unfold IsDict; decide, by decide, by decide⟩

theorem box_sides (sd : Rect.Side) : ∃ t, (sd.name, t) ∈ boxDict := by
  cases sd
  · exact ⟨1, by decide⟩
  · exact ⟨2, by decide⟩
  · exact ⟨4, by decide⟩
  · exact ⟨8, by decide⟩

theorem box_goodCfg (cb : Callbacks (Unit × BCall ℚ 2 2 Nat → Except Err (Unit × BoxPart))) : GoodCfg (boxCfg cb) := by
  refine ⟨⟨?_, by simp [boxCfg]⟩, by simp [boxCfg], by simp [boxCfg], by simp [boxCfg], by simp [boxCfg]⟩
  intro a ha
  simp only [boxCfg, List.mem_cons, List.not_mem_nil, or_false] at ha
  rcases ha with rfl | rfl <;> rfl

theorem box_goodMesh (cb : Callbacks (Unit × BCall ℚ 2 2 Nat → Except Err (Unit × BoxPart))) :
    GoodMesh (boxCfg cb) onBox (fun k => k) 1 12 := by
  refine ⟨fun q _ => ⟨by simp [boxCfg], by simp [boxCfg], rfl⟩, fun q hq => ?_, ⟨fun _ _ => rfl, fun _ _ _ _ h => h, fun _ h => h⟩⟩
  simp only [onBox, decide_eq_true_eq] at hq
  simp only [boxCfg]
  omega

theorem box_fresh (n : Nat) : Fresh 2 1 12 n ⟨0, 0, []⟩ (boxState n) boxIdeal [0] := by
  refine ⟨rfl, rfl, rfl, rfl, rfl, ?_, ?_, ?_, ?_, rfl, rfl⟩
  · exact .cons ⟨rfl, rfl, rfl, rfl, ⟨SAP.Reachable.new 2 _ (by decide), SAP.new_sim 2 _ (by decide), rfl⟩,
      rfl, rfl⟩ (.cons ⟨rfl, rfl, rfl, rfl, ⟨SAP.Reachable.new 2 _ (by decide), SAP.new_sim 2 _ (by decide), rfl⟩,
      rfl, rfl⟩ .nil)
  · intro p hp
    simp only [boxIdeal, List.mem_cons, List.not_mem_nil, or_false] at hp
    rcases hp with rfl | rfl <;> rfl
  · exact Or.inr ⟨_, rfl, newWriter_ready 2 2 (by decide) 0, rfl, by simp [Output.newWriter, boxIdeal]⟩
  · simp [HistIs, boxState]

theorem box_sources (cb : Callbacks (Unit × BCall ℚ 2 2 Nat → Except Err (Unit × BoxPart))) :
    SourcesPresent (le_refl 2) boxTri (boxCfg cb).sources := by
  intro s hs count time side side' xs e q hq
  simp only [boxCfg, List.mem_singleton] at hs
  subst hs
  cases e
  simp only [List.mem_singleton] at hq
  subst hq
  exact ⟨by unfold InItsCell; decide +kernel, rfl⟩

theorem box_initial : InitPresent (le_refl 2) boxTri (some boxInit) := by
  intro gs hgs a ha q hq
  cases hgs
  simp only [boxInit, List.mem_cons, List.not_mem_nil, or_false] at ha
  rcases ha with rfl | rfl
  · simp only [List.mem_cons, List.not_mem_nil, or_false] at hq
    rcases hq with rfl | rfl | rfl <;> exact ⟨by unfold InItsCell; decide +kernel, rfl⟩
  · simp only [List.mem_singleton] at hq
    subst hq
    exact ⟨by unfold InItsCell; decide +kernel, rfl⟩

theorem box_on (q : BoxPart) (hq : Present (le_refl 2) boxTri q) : onBox q = true := by
  have h := hq.1
  unfold InItsCell Mesh.isInside Mesh.lookup at h
  simp only [onBox, decide_eq_true_eq]
  by_contra hn
  have : boxTri.cell q.cell = none := if_neg (by simpa using hn)
  rw [this] at h
  cases h

/-! ### The theorems applied -/

-- `C85_run`: all sides delete the particles.
example {n : Nat} {i0 is} (hr : boxRun sinkCB n = .ok (i0, is)) :
    (i0 :: is).IsChain (LeapStep (le_refl 2) (inBounds 0 3 0 2) (fun sn => if sn = "H" then 1 else 1 / 4) (fun _ f _ => some ![f, 1])
      (boxCfg sinkCB) 2 1) ∧
      ∃ st', run (boxCfg sinkCB) (some boxInit) n (boxState n) = .ok st' ∧
        Outcome (boxCfg sinkCB) (fun k => k) 12 true [0] (boxState n) st' i0 is := by
  obtain ⟨pm, hpm, h⟩ := C85_run (V := ℚ) (φ := ℚ) (by norm_num) (by norm_num) (by norm_num) (by norm_num) box_tags box_sides
    (by norm_num) (by norm_num) box_created (cb := sinkCB) (species := ["H", "He"]) (f := fun _ _ a => bcAbsorb a.1 a.2)
    (by
      intro sn hs sd
      simp only [List.mem_cons, List.not_mem_nil, or_false] at hs
      rcases hs with rfl | rfl <;> cases sd <;> exact .inr (.inr ⟨by decide, by decide, rfl⟩))
    (fun _ _ _ st _ => ⟨st, rfl⟩)
    (by
      intro name f hf a st' q' e
      unfold sinkCB at hf
      split at hf
      · cases hf; cases e; rfl
      · cases hf)
    boxDiag
  cases hpm
  exact h (cfg := boxCfg sinkCB) (maxCross := 18) rfl (box_sources _) (box_goodCfg _) (box_goodMesh _) n box_initial (box_fresh n) (by decide)
    (by simp [boxState]) hr

-- Two particles leave in the first step, one is made in the second.
example : (boxRun sinkCB 2).toOption.map (fun r => (r.1 :: r.2).map (fun i => i.pops.map (fun p => p.st.items.length)))
    = some [[3, 1], [1, 1], [2, 1]] := by decide +kernel

/-- Which sides are mirrors for which species, with the callbacks `boxCB`. -/
def boxMirrors (sn : String) : Rect.Side → Bool
  | .left => sn == "H"
  | .bottom => true
  | _ => false

-- `C86_run`: `H` is mirrored at `xmin` and `ymin`, `He` at `ymin`.  The run of any length ends normally, or by
-- the assertion of the source, unless a species loses all its particles in one step.
example (n : Nat) (h : boxRun boxCB n ≠ .error .allLost) : (∃ st', run (boxCfg boxCB) (some boxInit) n (boxState n) = .ok st') ∨
    ((boxCfg boxCB).sources ≠ [] ∧ run (boxCfg boxCB) (some boxInit) n (boxState n) = .error .assertion) := by
  obtain ⟨pm, hpm, hrest⟩ := C86_run (V := ℚ) (φ := ℚ) (by norm_num) (by norm_num) (by norm_num) (by norm_num) box_tags box_sides
    (by norm_num) (by norm_num) box_created (cb := boxCB) (species := ["H", "He"]) (m := boxMirrors)
    (f := fun sn sd a => if boxMirrors sn sd then bcReflect a.1 a.2 else bcAbsorb a.1 a.2)
    (by
      intro sn hs sd
      simp only [List.mem_cons, List.not_mem_nil, or_false] at hs
      rcases hs with rfl | rfl
      · cases sd
        · exact .inl rfl
        · exact .inr (.inr ⟨rfl, rfl, rfl⟩)
        · exact .inr (.inl ⟨rfl, rfl⟩)
        · exact .inr (.inr ⟨rfl, rfl, rfl⟩)
      · cases sd
        · exact .inr (.inr ⟨rfl, rfl, rfl⟩)
        · exact .inr (.inr ⟨rfl, rfl, rfl⟩)
        · exact .inr (.inl ⟨rfl, rfl⟩)
        · exact .inr (.inr ⟨rfl, rfl, rfl⟩))
    (fun _ _ _ st _ => ⟨st, rfl⟩)
    (by
      intro name f hf a st' q' e
      unfold boxCB at hf
      split at hf
      · cases hf
        simp only [bcReflect] at e
        split at e
        · cases e
        · cases e; rfl
      · split at hf
        · cases hf; cases e; rfl
        · cases hf)
    (fun _ _ => .inr rfl) (fun _ _ => .inr rfl) (maxCross := 18)
    (by
      intro sn hs
      simp only [List.mem_cons, List.not_mem_nil, or_false] at hs
      rcases hs with rfl | rfl <;> decide)
    boxDiag
  cases hpm
  refine hrest (cfg := boxCfg boxCB) rfl (box_sources _) box_on (box_goodCfg _) (box_goodMesh _) n box_initial (box_fresh n)
    (by decide) (by simp [boxState]) ?_ ?_ h
  · intro s hs
    simp only [boxCfg, List.mem_singleton] at hs
    subst hs
    exact ⟨by decide, by decide, fun _ _ side => ⟨_, rfl⟩⟩
  · intro gs hgs a ha
    cases hgs
    simp only [boxInit, List.mem_cons, List.not_mem_nil, or_false] at ha
    rcases ha with rfl | rfl <;> decide

-- The numbers of particles in such a run.
example : (boxRun boxCB 3).toOption.map (fun r => (r.1 :: r.2).map (fun i => i.pops.map (fun p => p.st.items.length)))
    = some [[3, 1], [2, 1], [3, 1], [2, 1]] := by decide +kernel

-- `C86_neutral`: a particle of a neutral species crosses the rectangle.
example (time dt : ℚ) (st : Unit × Vec ℚ 2) (ux uy : ℚ) :
    ∃ a, moveNeutral (le_refl 2) boxTri .neutral (namedBC sinkCB boxDict ["H", "He"] "He") 18 time dt st (boxPart (1 / 2) (1 / 4) ux uy 0) = .ok a := by
  obtain ⟨pm, hpm, hM, -, hw, -, -, hb⟩ := C85_named_walls (by norm_num) (by norm_num) (by norm_num) (by norm_num) box_tags box_sides
    (by norm_num) (by norm_num) box_created (cb := sinkCB) (species := ["H", "He"]) (sn := "He") (by decide) (m := fun _ => false)
    (f := fun _ a => bcAbsorb a.1 a.2) (fun sd => by cases sd <;> exact .inr (.inr ⟨by decide, by decide, rfl⟩)) (fun _ st _ => ⟨st, rfl⟩) boxDiag
  cases hpm
  refine C86_neutral (m := fun _ => false) (by norm_num) (by norm_num) hM (fun _ => rfl) rfl ?_ ?_ time dt st ⟨?_, rfl⟩ (by decide)
  · rw [gridPoint_zero, gridPoint_zero, gridPoint_last _ _ (by norm_num), gridPoint_last _ _ (by norm_num)]; exact hw
  · rw [gridPoint_zero, gridPoint_zero, gridPoint_last _ _ (by norm_num), gridPoint_last _ _ (by norm_num)]; exact hb
  · have : InItsCell (le_refl 2) boxTri (boxPart (1 / 2) (1 / 4) 0 0 0) := by unfold InItsCell; decide +kernel
    exact this

end Dt
