import Verif.Lemmas.LineMesh
import Mathlib.Tactic.NormNum
import Mathlib.Tactic.IntervalCases
import Mathlib.Algebra.Order.Ring.Rat

/-!
# Properties of the facet search (C23, C24)
-/

namespace Dt
variable {K : Type} [Field K] [LinearOrder K] [IsStrictOrderedRing K] {g : Nat}

/-! ## A concrete cell: a triangle of the unit square -/

/-- The triangle (0,0), (1,0), (1,1). -/
def demoTri : Cell ℚ 2 where
  verts := [![0, 0], ![1, 0], ![1, 1]]
  normals := [![1, 0], ![-1, 1], ![0, -1]]
  facets := [3, 1, 0]
  neighbors := [-1, 1, -1]

omit [LinearOrder K] [IsStrictOrderedRing K] in
theorem dot2 (a b : Vec K 2) : dot a b = a 0 * b 0 + a 1 * b 1 := by simp [dot, Fin.sum_univ_two]

theorem demoTri_regular : demoTri.Regular := by
  refine ⟨by omega, rfl, rfl, rfl, rfl, ?_, ?_⟩
  all_goals
    intro k i j n vi vj hn hvi hvj hi hj
    have hk : k < 3 := by have := (List.getElem?_eq_some_iff.1 hn).1; simpa [demoTri] using this
    have hi' : i < 3 := by have := (List.getElem?_eq_some_iff.1 hvi).1; simpa [demoTri] using this
    have hj' : j < 3 := by have := (List.getElem?_eq_some_iff.1 hvj).1; simpa [demoTri] using this
    interval_cases k <;> interval_cases i <;> interval_cases j <;>
      first
      | (exfalso; revert hi hj; simp [onFacet]; done)
      | (obtain rfl := Option.some.inj hn
         obtain rfl := Option.some.inj hvi
         obtain rfl := Option.some.inj hvj
         norm_num [dot2])

/-- A one-cell mesh. -/
def demoTriMesh : Mesh ℚ 2 := ⟨fun i => if i = 0 then some demoTri else none, fun _ => 1⟩

theorem demoTri_has : demoTri.Has ![1/2, 1/4] := by
  rw [← contains_iff demoTri_regular]
  simp [demoTri, Cell.contains, facetTests, dot2]
  norm_num

/-! ## C23 -/

/-- C23.  From a start point in the closed cell, `find_facet` returns the fraction of the
move up to which the particle is in the closed cell; the facet returned is one whose
plane is crossed outwards at that point, no facet plane is crossed outwards earlier, and
the vector returned is its normal. -/
theorem C23_first_facet {M : Mesh K g} {ci : Int} {c : Cell K g} (hc : M.cell ci = some c)
    (hr : c.Regular) {x0 dx : Vec K g} (hx : c.Has x0) (hdx : dx ≠ 0) :
    ∃ (facet : Int) (f : K) (n : Vec K g), M.findFacet x0 dx ci = .ok (facet, f, some n) ∧
      0 ≤ f ∧ f ≤ 1 ∧
      (∀ t : K, 0 ≤ t → t ≤ 1 → (c.Has (x0 + t • dx) ↔ t ≤ f)) ∧
      (facet ≠ -1 → ∃ k : Nat, facet = k ∧ k ≤ g ∧ f < 1 ∧ c.OnPlane k (x0 + f • dx) ∧
        c.normals[k]? = some n ∧ 0 < dot n dx) ∧
      (∀ (j : Nat) (t : K) (m : Vec K g), j ≤ g → c.normals[j]? = some m → 0 < dot m dx →
        c.OnPlane j (x0 + t • dx) → f ≤ t) := by
  obtain ⟨facet, f, n, e, hf, hn⟩ := findFacet_ok hc hr hx hdx
  refine ⟨facet, f, n, e, hf.range.1, hf.range.2, hf.exit, ?_, ?_⟩
  · intro hne
    obtain ⟨k, rfl, hk, h1, h2, h3⟩ := hf.some_ hne
    have := hn hne
    rw [Int.toNat_natCast] at this
    exact ⟨k, rfl, hk, h1, h2, this, h3 n this⟩
  · intro j t m hj hm hpos hp
    have hhas := (hf.exit f hf.range.1 hf.range.2).2 (le_refl _)
    -- a vertex of facet `j`
    obtain ⟨i, hi, hon⟩ : ∃ i, i < g + 1 ∧ onFacet g j i := by
      have := hr.dim
      unfold onFacet
      split
      · exact ⟨j, by omega, rfl⟩
      · by_cases h0 : j = 0
        · exact ⟨1, by omega, by omega⟩
        · exact ⟨0, by omega, by omega⟩
    have hv := List.getElem?_eq_getElem (l := c.verts) (i := i) (by rw [hr.verts]; exact hi)
    have h1 := hhas j hj m _ i hm hv hon
    have h2 := hp m _ i hm hv hon
    rw [dot_sub, dot_add, dot_smul] at h1 h2
    by_contra hlt
    rw [not_le] at hlt
    have := mul_pos (sub_pos.2 hlt) hpos
    rw [sub_mul] at this
    linarith

/-- Non-vacuity of C23: a particle in the triangle moving right hits facet 0 (x = 1) at
half of its move. -/
example : (demoTriMesh.findFacet ![1/2, 1/4] ![1, 0] 0).map (fun r => (r.1, r.2.1)) =
    .ok (0, 1/2) := by decide +kernel

example : ∃ (facet : Int) (f : ℚ) (n : Vec ℚ 2),
    demoTriMesh.findFacet ![1/2, 1/4] ![1, 0] 0 = .ok (facet, f, some n) ∧ 0 ≤ f ∧ f ≤ 1 := by
  obtain ⟨facet, f, n, h, h1, h2, -⟩ := C23_first_facet (M := demoTriMesh) (ci := 0)
    (c := demoTri) rfl demoTri_regular (x0 := ![1/2, 1/4]) (dx := ![1, 0]) demoTri_has
    (fun h => by have := congrFun h 0; simp at this)
  exact ⟨facet, f, n, h, h1, h2⟩

/-- C23.  Whatever the cell and the start point, a fraction that is returned is between 0
and 1. -/
theorem C23_fraction_range {M : Mesh K g} {x0 dx : Vec K g} {ci facet : Int} {f : K}
    {n : Option (Vec K g)} (e : M.findFacet x0 dx ci = .ok (facet, f, n)) : 0 ≤ f ∧ f ≤ 1 :=
  findFacet_range e

/-! ## C24 -/

/-- C24.  From a start point in the closed cell, `find_facet` always returns, and it
returns NO_FACET, with fraction 1, exactly if the end point is in the closed cell.  (A
move of length zero is included.) -/
theorem C24_no_facet_iff {M : Mesh K g} {ci : Int} {c : Cell K g} (hc : M.cell ci = some c)
    (hr : c.Regular) {x0 : Vec K g} (dx : Vec K g) (hx : c.Has x0) :
    ∃ (facet : Int) (f : K) (n : Option (Vec K g)), M.findFacet x0 dx ci = .ok (facet, f, n) ∧
      (facet = -1 ↔ M.isInside (x0 + dx) ci = .ok true) ∧
      (facet = -1 ↔ c.Has (x0 + dx)) ∧ (facet = -1 → f = 1) := by
  by_cases hdx : dx = 0
  · subst hdx
    refine ⟨-1, 1, none, ?_, ?_, ?_, fun _ => rfl⟩
    · unfold Mesh.findFacet
      rw [if_pos (by rw [dot_zero])]
    · rw [add_zero, (isInside_iff hc hr _).1]
      exact ⟨fun _ => hx, fun _ => rfl⟩
    · rw [add_zero]; exact ⟨fun _ => hx, fun _ => rfl⟩
  · obtain ⟨facet, f, n, e, hf, hn⟩ := findFacet_ok hc hr hx hdx
    have key : facet = -1 ↔ c.Has (x0 + dx) := by
      have := hf.exit 1 zero_le_one (le_refl _)
      rw [one_smul] at this
      rw [this]
      constructor
      · intro h; rw [hf.none_ h]
      · intro h
        by_contra hne
        obtain ⟨k, -, -, h1, -⟩ := hf.some_ hne
        linarith
    exact ⟨facet, f, some n, e, by rw [(isInside_iff hc hr _).1]; exact key, key, hf.none_⟩

/-- Non-vacuity of C24: a particle staying in the triangle. -/
example : (demoTriMesh.findFacet ![1/2, 1/4] ![1/4, 0] 0).map (fun r => (r.1, r.2.1)) =
    .ok (-1, 1) := by decide +kernel

end Dt
