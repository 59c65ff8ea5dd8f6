import Verif.Model.Locate
import Verif.Spec.Locate
import Verif.Props.Species
import Verif.Props.RectMesh

/-!
# Finding the cells of particles (C87)
-/

set_option linter.unusedSectionVars false

namespace Dt
open Species Locate Spec
variable {K : Type} [Field K] [LinearOrder K] {g p : Nat} {ρ : Type}

theorem int32_of {n : Int} (h0 : -2147483648 ≤ n) (h1 : n < 2147483648) : int32 n = n := by
  unfold int32 Int.bmod
  norm_num
  split <;> omega

/-- Whatever the mesh, there is a function with the properties assumed of Dolfin's search. -/
theorem finds_exists (M : Mesh K g) : ∃ first, Finds M first := by
  classical
  refine ⟨fun q => if h : M.Points q then h.choose else 4294967295, ?_, ?_⟩
  · intro q h
    rw [dif_pos h]
    obtain ⟨c, hc⟩ := h.choose_spec
    exact ⟨c, hc⟩
  · intro q h
    rw [dif_neg h]

section
variable {M : Mesh K g} {first : Vec K g → Int}

theorem first_ne (hn : M.Numbered) (hf : Finds M first) (q : Vec K g) : first q ≠ noCell := by
  by_cases h : M.Points q
  · obtain ⟨c, hc, -⟩ := hf.hit q h
    have := (hn _ _ hc).1
    intro e
    rw [e] at this
    exact absurd this (by decide)
  · rw [hf.miss q h]; decide

/-- C87 (a single point).  The cell found for a point of the mesh contains it. -/
theorem C87_point (h : g ≤ p) (hn : M.Numbered) (hf : Finds M first) {x : Vec K p} (hx : M.Points (proj h x)) :
    ∃ ci c, computeCellIndex h first x = .ok ci ∧ M.cell ci = some c ∧ c.Has (proj h x) := by
  obtain ⟨c, hc, hq⟩ := hf.hit _ hx
  refine ⟨_, c, ?_, hc, hq⟩
  unfold computeCellIndex
  exact if_neg (first_ne hn hf _)

/-- C87 is false for points outside of the mesh: instead of the exit with the message that the particle
is out of bounds, or the value `NO_CELL` of the documentation, the number 4294967295, which is not the
number of a cell, is returned. -/
theorem C87_false_reported (h : g ≤ p) (hn : M.Numbered) (hf : Finds M first) {x : Vec K p}
    (hx : ¬ M.Points (proj h x)) :
    computeCellIndex h first x = .ok 4294967295 ∧ (4294967295 : Int) ≠ noCell ∧ M.cell 4294967295 = none := by
  refine ⟨?_, by decide, ?_⟩
  · unfold computeCellIndex
    dsimp only
    rw [hf.miss _ hx]
    exact if_neg (by decide)
  · cases hc : M.cell 4294967295 with
    | none => rfl
    | some c => exact absurd (hn _ _ hc).2 (by decide)

/-- C87 is false for arrays of points: the function for them never returns. -/
theorem C87_false_indices (n : Nat) : computeCellIndices n = .error .name := by
  cases n <;> rfl

theorem locateItems_eq (h : g ≤ p) (hn : M.Numbered) (hf : Finds M first) (v : View) (k ip : Nat)
    (s : SAP (Part K p ρ)) : locateItems h M first v k ip s =
      indexItems (fun q => first (proj h q.x)) (fun q => M.isInside (proj h q.x) q.cell) setCell v k ip s := by
  induction k generalizing ip s with
  | zero => rfl
  | succ k ih =>
    have hc : ∀ q : Part K p ρ, computeCellIndex h first q.x = .ok (first (proj h q.x)) := fun q =>
      if_neg (first_ne hn hf _)
    unfold locateItems indexItems
    simp only [hc, ih, bind, Except.bind]

theorem locateAll_eq (h : g ≤ p) (hn : M.Numbered) (hf : Finds M first) (ss : List (SAP (Part K p ρ))) :
    locateAll h M first ss =
      indexAll (fun q => first (proj h q.x)) (fun q => M.isInside (proj h q.x) q.cell) setCell ss := by
  induction ss with
  | nil => rfl
  | cons s ss ih =>
    unfold locateAll indexAll locateSpecies indexSpecies
    simp only [locateItems_eq h hn hf, ih]

theorem inside_iff_has (hM : ∀ ci c, M.cell ci = some c → c.Regular) (q : Vec K g) (ci : Int) :
    M.isInside q ci = .ok true ↔ ∃ c, M.cell ci = some c ∧ c.Has q := by
  unfold Mesh.isInside Mesh.lookup
  cases hc : M.cell ci with
  | none => simp [bind, Except.bind]
  | some c =>
    simp only [bind, Except.bind, pure, Except.pure, Except.ok.injEq, Option.some.injEq, exists_eq_left']
    exact contains_iff (hM ci c hc) q

/-- The check made of one particle. -/
theorem check (hM : ∀ ci c, M.cell ci = some c → c.Regular) (h : g ≤ p) (hn : M.Numbered) (hf : Finds M first)
    (q : Part K p ρ) :
    (M.Points (proj h q.x) →
      M.isInside (proj h (setCell q (first (proj h q.x))).x) (setCell q (first (proj h q.x))).cell = .ok true) ∧
    (¬ M.Points (proj h q.x) →
      M.isInside (proj h (setCell q (first (proj h q.x))).x) (setCell q (first (proj h q.x))).cell = .error .key) := by
  constructor
  · intro hx
    obtain ⟨c, hc, hq⟩ := hf.hit _ hx
    obtain ⟨h0, h1⟩ := hn _ _ hc
    simp only [setCell]
    rw [int32_of (by omega) h1, inside_iff_has hM]
    exact ⟨c, hc, hq⟩
  · intro hx
    simp only [setCell]
    rw [hf.miss _ hx]
    have h1 : int32 4294967295 = -1 := by decide
    have h2 : M.cell (-1) = none := by
      cases hc : M.cell (-1) with
      | none => rfl
      | some c => exact absurd (hn _ _ hc).1 (by decide)
    rw [h1]
    unfold Mesh.isInside Mesh.lookup
    rw [h2]
    rfl

section
variable {α : Type} {locate : α → Int} {inside : α → Except Err Bool} {setC : α → Int → α}

theorem mapM_error {e : Err} (xs : List α) (h : xs.mapM (indexOne locate inside setC) = .error e) :
    ∃ x ∈ xs, indexOne locate inside setC x = .error e := by
  induction xs with
  | nil => cases h
  | cons x xs ih =>
    rw [List.mapM_cons] at h
    simp only [bind, Except.bind, pure, Except.pure] at h
    cases hx : indexOne locate inside setC x with
    | error e' =>
      rw [hx] at h
      simp only [Except.error.injEq] at h
      exact ⟨x, by simp, by rw [hx, h]⟩
    | ok y =>
      rw [hx] at h
      simp only at h
      cases hm : xs.mapM (indexOne locate inside setC) with
      | error e' =>
        rw [hm] at h
        simp only [Except.error.injEq] at h
        obtain ⟨z, hz, hze⟩ := ih (by rw [hm, h])
        exact ⟨z, List.mem_cons_of_mem _ hz, hze⟩
      | ok ys => rw [hm] at h; cases h

theorem indexAll_error {e : Err} (ss : List (SAP α)) (pops : List (List α))
    (h : List.Forall₂ (fun s xs => SAP.Reachable s ∧ Stores s xs) ss pops)
    (he : indexAll locate inside setC ss = .error e) :
    ∃ xs ∈ pops, ∃ x ∈ xs, indexOne locate inside setC x = .error e := by
  induction h with
  | nil => cases he
  | @cons s xs ss pops hd htl ih =>
    have inv := SAP.reachable_inv hd.1
    have hc := (SAP.stores_iff inv xs).1 hd.2
    have key := indexSpecies_ok (locate := locate) (inside := inside) (setCell := setC) inv
    rw [← hc] at key
    simp only [indexAll, bind, Except.bind, pure, Except.pure] at he
    cases hm : xs.mapM (indexOne locate inside setC) with
    | error e' =>
      rw [hm] at key
      rw [key] at he
      simp only [Except.error.injEq] at he
      obtain ⟨x, hx, hxe⟩ := mapM_error xs hm
      exact ⟨xs, by simp, x, hx, by rw [hxe, he]⟩
    | ok ys =>
      rw [hm] at key
      obtain ⟨s', e', -, -⟩ := key
      rw [e'] at he
      simp only at he
      cases hi : indexAll locate inside setC ss with
      | error e'' =>
        rw [hi] at he
        simp only [Except.error.injEq] at he
        obtain ⟨zs, hz, x, hx, hxe⟩ := ih (by rw [hi, he])
        exact ⟨zs, List.mem_cons_of_mem _ hz, x, hx, hxe⟩
      | ok ss' => rw [hi] at he; cases he

end

/-- C87 (all particles).  `compute_mesh_cell_indices` on any mesh of regular cells: if all particles are
in the mesh, then it succeeds and afterwards every particle is labelled with a cell that contains it,
and has otherwise the attributes and the place it had; if any particle is not in the mesh, then the
function does not return, but ends with a KeyError. -/
theorem C87_particles (hM : ∀ ci c, M.cell ci = some c → c.Regular) (h : g ≤ p) (hn : M.Numbered) (hf : Finds M first)
    (ss : List (SAP (Part K p ρ))) (pops : List (List (Part K p ρ)))
    (hs : List.Forall₂ (fun s xs => SAP.Reachable s ∧ Stores s xs) ss pops) :
    ((∀ xs ∈ pops, ∀ q ∈ xs, M.Points (proj h q.x)) →
      ∃ ss' pops', locateAll h M first ss = .ok ss' ∧
        List.Forall₂ (fun s xs => SAP.Reachable s ∧ Stores s xs) ss' pops' ∧
        List.Forall₂ (Relabelled (fun q c => { q with cell := c }) (InItsCell h M)) pops pops') ∧
    (¬ (∀ xs ∈ pops, ∀ q ∈ xs, M.Points (proj h q.x)) → locateAll h M first ss = .error .key) := by
  rw [locateAll_eq h hn hf]
  have key := C55_cell_indices (locate := fun q : Part K p ρ => first (proj h q.x))
    (inside := fun q => M.isInside (proj h q.x) q.cell) (setCell := setCell) ss pops hs
  have hchk := fun q => check (ρ := ρ) hM h hn hf q
  constructor
  · intro hall
    rw [if_pos (fun xs hxs q hq => (hchk q).1 (hall xs hxs q hq))] at key
    obtain ⟨ss', pops', h1, h2, h3⟩ := key
    refine ⟨ss', pops', h1, h2, h3.imp ?_⟩
    intro xs ys hr
    induction hr with
    | nil => exact .nil
    | cons c ok _ ih => exact .cons (int32 c) ok ih
  · intro hnot
    rw [if_neg (fun hall => hnot fun xs hxs q hq => by
      by_contra hx
      have h1 := hall xs hxs q hq
      rw [(hchk q).2 hx] at h1
      cases h1)] at key
    obtain ⟨e, he⟩ := key
    obtain ⟨xs, -, q, -, hq⟩ := indexAll_error ss pops hs he
    rw [he]
    simp only [indexOne, bind, Except.bind] at hq
    by_cases hx : M.Points (proj h q.x)
    · rw [(hchk q).1 hx] at hq
      cases hq
    · rw [(hchk q).2 hx] at hq
      cases hq
      rfl

end

section
variable [IsStrictOrderedRing K] {xmin xmax ymin ymax : K} {nx ny : Nat}

open Mark Rect in
/-- C87 (rectangles).  Particles anywhere in the rectangle, labelled with any cell: after
`compute_mesh_cell_indices` every container has the same particles at the same places, now labelled with
cells that contain them, which is what the movers require (C49, C84, C85, C86).  With a single particle
outside of the rectangle there is a KeyError. -/
theorem C87_rectangle (hx : xmin < xmax) (hy : ymin < ymax) (hnx : 1 ≤ nx) (hny : 1 ≤ ny)
    (hsmall : 2 * (nx * ny) ≤ 2147483648) (d : Nat → Nat → Bool) (pm : RFacet K → Int) {first : Vec K 2 → Int}
    (hf : Finds (boxMesh xmin xmax ymin ymax nx ny d pm) first)
    (ss : List (SAP (Part K 2 ρ))) (pops : List (List (Part K 2 ρ)))
    (hs : List.Forall₂ (fun s xs => SAP.Reachable s ∧ Stores s xs) ss pops) :
    ((∀ xs ∈ pops, ∀ q ∈ xs, xmin ≤ q.x 0 ∧ q.x 0 ≤ xmax ∧ ymin ≤ q.x 1 ∧ q.x 1 ≤ ymax) →
      ∃ ss' pops', locateAll (le_refl 2) (boxMesh xmin xmax ymin ymax nx ny d pm) first ss = .ok ss' ∧
        List.Forall₂ (fun s xs => SAP.Reachable s ∧ Stores s xs) ss' pops' ∧
        List.Forall₂ (Relabelled (fun q c => { q with cell := c })
          (InItsCell (le_refl 2) (boxMesh xmin xmax ymin ymax nx ny d pm))) pops pops') ∧
    (¬ (∀ xs ∈ pops, ∀ q ∈ xs, xmin ≤ q.x 0 ∧ q.x 0 ≤ xmax ∧ ymin ≤ q.x 1 ∧ q.x 1 ≤ ymax) →
      locateAll (le_refl 2) (boxMesh xmin xmax ymin ymax nx ny d pm) first ss = .error .key) := by
  have gx : ∀ i, i < nx → gridPoint xmin xmax nx i < gridPoint xmin xmax nx (i + 1) := fun i _ => gridPoint_lt hx hnx i
  have gy : ∀ i, i < ny → gridPoint ymin ymax ny i < gridPoint ymin ymax ny (i + 1) := fun i _ => gridPoint_lt hy hny i
  have hpt := points (d := d) hnx hny gx gy (boxMesh xmin xmax ymin ymax nx ny d pm).marker
  simp only [inRect, gridPoint_zero, gridPoint_last _ _ hnx, gridPoint_last _ _ hny] at hpt
  have hn : (boxMesh xmin xmax ymin ymax nx ny d pm).Numbered := by
    intro ci c hc
    simp only [boxMesh, mesh] at hc
    split at hc
    · rename_i hci
      refine ⟨hci.1, ?_⟩
      have : 2 * ((nx * ny : Nat) : Int) ≤ 2147483648 := by exact_mod_cast hsmall
      omega
    · cases hc
  have hreg : ∀ ci c, (boxMesh xmin xmax ymin ymax nx ny d pm).cell ci = some c → c.Regular := by
    intro ci c hc
    obtain ⟨i, j, t, hi, hj, -, rfl⟩ := cell_inv hc
    exact cell_regular (gx i hi) (gy j hj)
  have hiff : (∀ xs ∈ pops, ∀ q ∈ xs, (boxMesh xmin xmax ymin ymax nx ny d pm).Points (proj (le_refl 2) q.x)) ↔
      ∀ xs ∈ pops, ∀ q ∈ xs, xmin ≤ q.x 0 ∧ q.x 0 ≤ xmax ∧ ymin ≤ q.x 1 ∧ q.x 1 ≤ ymax := by
    refine forall₂_congr fun xs _ => forall₂_congr fun q _ => ?_
    refine (hpt _).trans ?_
    simp only [inBounds, decide_eq_true_eq]
    rfl
  have key := C87_particles hreg (le_refl 2) hn hf ss pops hs
  rw [hiff] at key
  exact key

end

/-- Relabelled particles that are not marked for deletion are present, and have the positions, velocities
and other attributes they had. -/
theorem C87_present {h : g ≤ p} {M : Mesh K g} {xs ys : List (Part K p ρ)}
    (hr : Relabelled (fun q c => { q with cell := c }) (InItsCell h M) xs ys) :
    ys.map kin = xs.map kin ∧ ((∀ q ∈ xs, q.del = false) → ∀ q ∈ ys, Present h M q) := by
  induction hr with
  | nil => exact ⟨rfl, by simp⟩
  | @cons x xs ys c ok _ ih =>
    refine ⟨by rw [List.map_cons, List.map_cons, ih.1]; rfl, fun hd q hq => ?_⟩
    rcases List.mem_cons.1 hq with rfl | hq
    · exact ⟨ok, hd x (by simp)⟩
    · exact ih.2 (fun q hq => hd q (List.mem_cons_of_mem _ hq)) q hq

/-! ### A concrete case -/

/-- A search through all the cells. -/
def searchFirst (M : Mesh K g) (n : Nat) (q : Vec K g) : Int :=
  match (List.range n).find? (fun i : Nat => match M.isInside q (i : Int) with | .ok b => b | .error _ => false) with
  | some i => i
  | none => 4294967295

theorem searchFirst_finds {M : Mesh K g} {n : Nat} (hM : ∀ ci c, M.cell ci = some c → c.Regular)
    (hn : ∀ ci c, M.cell ci = some c → 0 ≤ ci ∧ ci < n) : Finds M (searchFirst M n) := by
  have hb : ∀ (q : Vec K g) (i : Int),
      (match M.isInside q i with | .ok b => b | .error _ => false) = true ↔ M.isInside q i = .ok true := by
    intro q i
    cases M.isInside q i <;> simp
  constructor
  · rintro q ⟨ci, c, hc, hq⟩
    unfold searchFirst
    split
    · rename_i i hi
      have := List.find?_some hi
      rw [hb, inside_iff_has hM] at this
      exact this
    · rename_i hnone
      rw [List.find?_eq_none] at hnone
      obtain ⟨h0, h1⟩ := hn ci c hc
      exfalso
      have hlt : ci.toNat < n := by omega
      refine hnone ci.toNat (List.mem_range.2 hlt) ?_
      rw [hb, inside_iff_has hM, Int.toNat_of_nonneg h0]
      exact ⟨c, hc, hq⟩
  · intro q hq
    unfold searchFirst
    split
    · rename_i i hi
      have := List.find?_some hi
      rw [hb, inside_iff_has hM] at this
      obtain ⟨c, hc, hh⟩ := this
      exact absurd ⟨_, c, hc, hh⟩ hq
    · rfl

/-- Three by two boxes on the rectangle from (0, 0) to (3, 2). -/
def locMesh : Mesh ℚ 2 := boxMesh 0 3 0 2 3 2 (fun _ _ => true) (fun _ => 0)

example : Finds locMesh (searchFirst locMesh 12) := by
  have gx : ∀ i, i < 3 → Mark.gridPoint (0 : ℚ) 3 3 i < Mark.gridPoint (0 : ℚ) 3 3 (i + 1) := fun i _ =>
    gridPoint_lt (by norm_num) (by norm_num) i
  have gy : ∀ i, i < 2 → Mark.gridPoint (0 : ℚ) 2 2 i < Mark.gridPoint (0 : ℚ) 2 2 (i + 1) := fun i _ =>
    gridPoint_lt (by norm_num) (by norm_num) i
  refine searchFirst_finds ?_ ?_
  · intro ci c hc
    obtain ⟨i, j, t, hi, hj, -, rfl⟩ := Rect.cell_inv hc
    exact Rect.cell_regular (gx i hi) (gy j hj)
  · intro ci c hc
    simp only [locMesh, boxMesh, Rect.mesh] at hc
    split at hc
    · rename_i h; exact h
    · cases hc

def locPart (x y : ℚ) : Part ℚ 2 Unit := ⟨![x, y], ![x, y], ![0, 0], 77, false, false, 0, ()⟩

def locStore (ps : List (Part ℚ 2 Unit)) : Except Err (SAP (Part ℚ 2 Unit)) :=
  ((SAP.new 2 (locPart 0 0)).pushAll ps).map (·.1)

/-- The cells of the particles after `compute_mesh_cell_indices`. -/
def locCells (ps : List (Part ℚ 2 Unit)) : Except Err (List (List Int)) := do
  let s ← locStore ps
  let ss ← locateAll (le_refl 2) locMesh (searchFirst locMesh 12) [s]
  return ss.map (fun s => s.contents.map (·.cell))

-- Particles in the rectangle, on an edge, in a corner; and one outside.
example : locCells [locPart (1/4) (1/2), locPart 1 (1/2), locPart 3 2] = .ok [[1, 0, 10]] := by decide +kernel
example : locCells [locPart (1/4) (1/2), locPart 4 (1/2), locPart 3 2] = .error .key := by decide +kernel
example : computeCellIndex (le_refl 2) (searchFirst locMesh 12) ![4, 1/2] = .ok 4294967295 := by decide +kernel

end Dt
