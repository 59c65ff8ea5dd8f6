import Verif.Props.Leapfrog
import Verif.Props.Geometry
import Mathlib.Tactic.FinCases
import Mathlib.Data.Fin.VecNotation

/-!
# Two- and three-dimensional meshes that meet the hypotheses on meshes

The unit square cut into two triangles, and the unit tetrahedron.  The theorems about conforming and
convex meshes (C25, C26, C28, C66, C73-C75) are not restricted to one dimension; these are instances.
-/

set_option linter.unusedSectionVars false

namespace Dt

/-- The lower left triangle. -/
def sqCell0 : Cell ℚ 2 where
  verts := [![0, 0], ![1, 0], ![0, 1]]
  normals := [![1, 1], ![-1, 0], ![0, -1]]
  facets := [0, 1, 2]
  neighbors := [1, -1, -1]

/-- The upper right triangle. -/
def sqCell1 : Cell ℚ 2 where
  verts := [![1, 0], ![0, 1], ![1, 1]]
  normals := [![0, 1], ![1, 0], ![-1, -1]]
  facets := [3, 4, 0]
  neighbors := [-1, -1, 0]

/-- The square; the four sides are marked. -/
def square : Mesh ℚ 2 :=
  ⟨fun i => if i = 0 then some sqCell0 else if i = 1 then some sqCell1 else none, fun F => F⟩

theorem sqCell0_regular : sqCell0.Regular := by
  refine ⟨by omega, rfl, rfl, rfl, rfl, ?_, ?_⟩
  all_goals
    intro k i j n vi vj hn hvi hvj hi hj
    have hk : k < 3 := by have := (List.getElem?_eq_some_iff.1 hn).1; simpa [sqCell0] using this
    have hi' : i < 3 := by have := (List.getElem?_eq_some_iff.1 hvi).1; simpa [sqCell0] using this
    have hj' : j < 3 := by have := (List.getElem?_eq_some_iff.1 hvj).1; simpa [sqCell0] using this
    interval_cases k <;> interval_cases i <;> interval_cases j <;>
      first
      | (exfalso; revert hi hj; simp [onFacet]; done)
      | (obtain rfl := Option.some.inj hn
         obtain rfl := Option.some.inj hvi
         obtain rfl := Option.some.inj hvj
         norm_num [dot2])

theorem sqCell1_regular : sqCell1.Regular := by
  refine ⟨by omega, rfl, rfl, rfl, rfl, ?_, ?_⟩
  all_goals
    intro k i j n vi vj hn hvi hvj hi hj
    have hk : k < 3 := by have := (List.getElem?_eq_some_iff.1 hn).1; simpa [sqCell1] using this
    have hi' : i < 3 := by have := (List.getElem?_eq_some_iff.1 hvi).1; simpa [sqCell1] using this
    have hj' : j < 3 := by have := (List.getElem?_eq_some_iff.1 hvj).1; simpa [sqCell1] using this
    interval_cases k <;> interval_cases i <;> interval_cases j <;>
      first
      | (exfalso; revert hi hj; simp [onFacet]; done)
      | (obtain rfl := Option.some.inj hn
         obtain rfl := Option.some.inj hvi
         obtain rfl := Option.some.inj hvj
         norm_num [dot2])

theorem sqCell0_has (q : Vec ℚ 2) : sqCell0.Has q ↔ 0 ≤ q 0 ∧ 0 ≤ q 1 ∧ q 0 + q 1 ≤ 1 := by
  rw [← contains_iff sqCell0_regular]
  simp [sqCell0, Cell.contains, facetTests, dot2]
  constructor
  · rintro ⟨h1, h2, h3⟩; exact ⟨by linarith, by linarith, by linarith⟩
  · rintro ⟨h1, h2, h3⟩; exact ⟨by linarith, by linarith, by linarith⟩

theorem sqCell1_has (q : Vec ℚ 2) : sqCell1.Has q ↔ q 0 ≤ 1 ∧ q 1 ≤ 1 ∧ 1 ≤ q 0 + q 1 := by
  rw [← contains_iff sqCell1_regular]
  simp [sqCell1, Cell.contains, facetTests, dot2]
  constructor
  · rintro ⟨h1, h2, h3⟩; exact ⟨by linarith, by linarith, by linarith⟩
  · rintro ⟨h1, h2, h3⟩; exact ⟨by linarith, by linarith, by linarith⟩

theorem square_cell {ci : Int} {c : Cell ℚ 2} (h : square.cell ci = some c) :
    (ci = 0 ∧ c = sqCell0) ∨ (ci = 1 ∧ c = sqCell1) := by
  simp only [square] at h
  split at h
  · cases h; exact .inl ⟨by assumption, rfl⟩
  · split at h
    · cases h; exact .inr ⟨by assumption, rfl⟩
    · cases h

theorem square_conforming : square.Conforming := by
  refine ⟨?_, ?_, ?_, ?_, ?_⟩
  · intro ci c h
    rcases square_cell h with ⟨-, rfl⟩ | ⟨-, rfl⟩
    · exact sqCell0_regular
    · exact sqCell1_regular
  · intro ci c h
    rcases square_cell h with ⟨-, rfl⟩ | ⟨-, rfl⟩ <;> decide
  · intro ci c F h hF
    rcases square_cell h with ⟨-, rfl⟩ | ⟨-, rfl⟩ <;> simp [sqCell0, sqCell1] at hF <;> omega
  · intro ci c k cj h hk hcj
    rcases square_cell h with ⟨-, rfl⟩ | ⟨-, rfl⟩
    · rcases k with _ | _ | _ | k
      · simp only [sqCell0, List.getElem?_cons_zero, Option.some.injEq] at hk
        subst hk
        refine ⟨sqCell1, 2, rfl, rfl, ?_, ?_⟩
        · intro n n' hn hn'
          simp [sqCell0, sqCell1] at hn hn'
          subst hn hn'
          exact ⟨1, by norm_num, by funext i; fin_cases i <;> norm_num⟩
        · intro q hq hp
          have := hp ![1, 1] ![1, 0] 1 rfl rfl (by simp [onFacet])
          rw [sqCell0_has] at hq
          rw [sqCell1_has]
          simp [dot2] at this
          exact ⟨by linarith, by linarith, by linarith⟩
      · simp [sqCell0] at hk; omega
      · simp [sqCell0] at hk; omega
      · simp [sqCell0] at hk
    · rcases k with _ | _ | _ | k
      · simp [sqCell1] at hk; omega
      · simp [sqCell1] at hk; omega
      · simp [sqCell1] at hk
        subst hk
        refine ⟨sqCell0, 0, rfl, rfl, ?_, ?_⟩
        · intro n n' hn hn'
          simp [sqCell0, sqCell1] at hn hn'
          subst hn hn'
          exact ⟨1, by norm_num, by funext i; fin_cases i <;> norm_num⟩
        · intro q hq hp
          have := hp ![-1, -1] ![1, 0] 0 rfl rfl (by simp [onFacet])
          rw [sqCell1_has] at hq
          rw [sqCell0_has]
          simp [dot2] at this
          exact ⟨by linarith, by linarith, by linarith⟩
      · simp [sqCell1] at hk
  · intro ci c k F h hk hF
    rcases square_cell h with ⟨-, rfl⟩ | ⟨-, rfl⟩ <;> rcases k with _ | _ | _ | k <;>
      simp [sqCell0, sqCell1] at hk hF <;> subst hF <;> simp [square]

theorem square_convex : square.Convex (fun q => decide (0 ≤ q 0 ∧ q 0 ≤ 1 ∧ 0 ≤ q 1 ∧ q 1 ≤ 1)) := by
  refine ⟨?_, ?_⟩
  · intro ci c q h hq
    rw [decide_eq_true_eq]
    rcases square_cell h with ⟨-, rfl⟩ | ⟨-, rfl⟩
    · rw [sqCell0_has] at hq
      exact ⟨by linarith, by linarith, by linarith, by linarith⟩
    · rw [sqCell1_has] at hq
      exact ⟨by linarith, by linarith, by linarith, by linarith⟩
  · intro ci c k h hk q hq n v j hn hv hj
    rw [decide_eq_true_eq] at hq
    rcases square_cell h with ⟨-, rfl⟩ | ⟨-, rfl⟩ <;> rcases k with _ | _ | _ | k <;>
      rcases j with _ | _ | _ | j <;> simp [sqCell0, sqCell1, onFacet] at hk hn hv hj <;>
      subst hn hv <;> simp [dot2] <;> linarith

/-- Delete at every marked facet. -/
def sinkBC2 : Int → Unit → BCall ℚ 2 3 Nat → Except Err (Unit × Part ℚ 3 Nat) := fun _ st b => bcAbsorb st b

theorem sinkBC2_plain : PlainBC square sinkBC2 := by
  refine ⟨fun st call n _ _ => ⟨_, rfl⟩, ?_, ?_, ?_⟩
  · intro value st call st' q' e
    simp only [sinkBC2, bcAbsorb, Except.ok.injEq, Prod.mk.injEq] at e
    rw [← e.2]
  · rintro st call st' q' e hm ⟨ci, c, k, cj, hc, hf, hn, hcj⟩
    exfalso
    apply hm
    rcases square_cell hc with ⟨-, rfl⟩ | ⟨-, rfl⟩ <;> rcases k with _ | _ | _ | k <;>
      simp [sqCell0, sqCell1] at hf hn <;> first | omega | exact hf.symm
  · intro st call st' q' n e _
    simp only [sinkBC2, bcAbsorb, Except.ok.injEq, Prod.mk.injEq] at e
    rw [← e.2]

/-- A particle in the first triangle, with three coordinates as in the source. -/
def sqPart (u : Vec ℚ 3) : Part ℚ 3 Nat := ⟨![1/4, 1/4, 5], ![1/4, 1/4, 5], u, 0, false, false, 0, 7⟩

theorem sqPart_present (u : Vec ℚ 3) : Present (by decide : 2 ≤ 3) square (sqPart u) :=
  ⟨show square.isInside ![1/4, 1/4] 0 = .ok true by decide +kernel, rfl⟩

/-- What is looked at in the examples. -/
def sqView (r : Except Err ((Unit × Vec ℚ 3) × Part ℚ 3 Nat × List (Part ℚ 3 Nat × ℚ))) :
    Option (List ℚ × Int × Bool × Nat) :=
  r.toOption.map (fun r => ([r.2.1.x 0, r.2.1.x 1, r.2.1.x 2], r.2.1.cell, r.2.1.del, r.2.1.crossings))

-- C75 on the square: a particle that stays, and one that leaves through the second triangle.
example : sqView (moveCharged (by decide : 2 ≤ 3) square .charged sinkBC2 10 1 1 (-1 * 1) false
    (fun _ => some ![0, 0, 1]) ((), ![0, 0, 0]) (sqPart ![1/2, 1/2, 0])) =
    some ([3/4, 3/4, 4], 1, false, 1) := by decide +kernel

example : sqView (moveCharged (by decide : 2 ≤ 3) square .charged sinkBC2 10 1 1 (-1 * 1) false
    (fun _ => none) ((), ![0, 0, 0]) (sqPart ![1/2, 1, 0])) =
    some ([3/4, 5/4, 5], -1, true, 2) := by decide +kernel

example (u : Vec ℚ 3) (n : Nat) (st' : Unit × Vec ℚ 3) (q' : Part ℚ 3 Nat) (evs : List (Part ℚ 3 Nat × ℚ))
    (e : moveCharged (by decide : 2 ≤ 3) square .charged sinkBC2 n 1 1 (-1 * 1) false (fun _ => none)
      ((), ![0, 0, 0]) (sqPart u) = .ok (st', q', evs)) :
    q'.del = !decide (0 ≤ q'.x 0 ∧ q'.x 0 ≤ 1 ∧ 0 ≤ q'.x 1 ∧ q'.x 1 ≤ 1) :=
  (C75_particle square_conforming square_convex rfl sinkBC2_plain (sqPart_present u) e).2

/-- The unit tetrahedron. -/
def tetCell : Cell ℚ 3 where
  verts := [![0, 0, 0], ![1, 0, 0], ![0, 1, 0], ![0, 0, 1]]
  normals := [![1, 1, 1], ![-1, 0, 0], ![0, -1, 0], ![0, 0, -1]]
  facets := [0, 1, 2, 3]
  neighbors := [-1, -1, -1, -1]

def tetMesh : Mesh ℚ 3 := ⟨fun i => if i = 0 then some tetCell else none, fun _ => 1⟩

theorem dot3 (a b : Vec ℚ 3) : dot a b = a 0 * b 0 + a 1 * b 1 + a 2 * b 2 := by
  simp [dot, Fin.sum_univ_three]

theorem tetCell_regular : tetCell.Regular := by
  refine ⟨by omega, rfl, rfl, rfl, rfl, ?_, ?_⟩
  all_goals
    intro k i j n vi vj hn hvi hvj hi hj
    have hk : k < 4 := by have := (List.getElem?_eq_some_iff.1 hn).1; simpa [tetCell] using this
    have hi' : i < 4 := by have := (List.getElem?_eq_some_iff.1 hvi).1; simpa [tetCell] using this
    have hj' : j < 4 := by have := (List.getElem?_eq_some_iff.1 hvj).1; simpa [tetCell] using this
    interval_cases k <;> interval_cases i <;> interval_cases j <;>
      first
      | (exfalso; revert hi hj; simp [onFacet]; done)
      | (obtain rfl := Option.some.inj hn
         obtain rfl := Option.some.inj hvi
         obtain rfl := Option.some.inj hvj
         simp only [dot3, Pi.sub_apply, Matrix.cons_val_zero, Matrix.cons_val_one, Matrix.cons_val]
         norm_num)

theorem tetMesh_cell {ci : Int} {c : Cell ℚ 3} (h : tetMesh.cell ci = some c) : ci = 0 ∧ c = tetCell := by
  simp only [tetMesh] at h
  split at h
  · cases h; exact ⟨by assumption, rfl⟩
  · cases h

theorem tetMesh_conforming : tetMesh.Conforming := by
  refine ⟨?_, ?_, ?_, ?_, ?_⟩
  · intro ci c h; rw [(tetMesh_cell h).2]; exact tetCell_regular
  · intro ci c h; rw [(tetMesh_cell h).2]; decide
  · intro ci c F h hF
    rw [(tetMesh_cell h).2] at hF
    simp [tetCell] at hF; omega
  · intro ci c k cj h hk hcj
    rw [(tetMesh_cell h).2] at hk
    rcases k with _ | _ | _ | _ | k <;> simp [tetCell] at hk <;> omega
  · intro ci c k F h hk hF
    simp [tetMesh]

theorem tetMesh_convex : tetMesh.Convex (fun q => tetCell.contains q) := by
  refine ⟨?_, ?_⟩
  · intro ci c q h hq
    rw [(tetMesh_cell h).2] at hq
    exact (contains_iff tetCell_regular q).2 hq
  · intro ci c k h hk q hq
    rw [(tetMesh_cell h).2] at hk ⊢
    refine (contains_iff tetCell_regular q).1 hq k ?_
    have := (List.getElem?_eq_some_iff.1 hk).1
    simp [tetCell] at this
    omega

end Dt
