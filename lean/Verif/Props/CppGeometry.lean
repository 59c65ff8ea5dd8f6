import Verif.Lemmas.CppInside
import Verif.Props.Geometry

/-!
# Properties of the compiled geometry functions (C63, C64)
-/

set_option linter.unusedSectionVars false

namespace Dt
variable {K : Type} [Field K] [LinearOrder K] [IsStrictOrderedRing K] {g : Nat}

/-! ## C63 -/

/-- C63.  The compiled test `is_inside_vertices` answers whether the point is a convex combination
of the vertices of the cell: 1D, 2D (also when the three vertices are on a line), 3D. -/
theorem C63_inside (hg : 1 ≤ g ∧ g ≤ 3) {coords : List K} {vertices : List Nat} {point : List K}
    {X : Fin (g + 1) → Vec K g} {p : Vec K g}
    (hX : ∀ j : Fin (g + 1), ∃ v, vertices[j.1]? = some v ∧
      ∀ i : Fin g, coords[v * g + i.1]? = some (X j i))
    (hp : ∀ i : Fin g, point[i.1]? = some (p i)) (hf : g = 3 → ¬ Flat X) :
    ∃ b, isInsideVertices g g coords vertices point = .ok b ∧ (b = true ↔ InHull X p) :=
  (isInsideVertices_spec hg hX hp).2 (fun h => hf h.1 h.2)

/-- C63.  For four vertices in a plane the test raises. -/
theorem C63_flat_raises {coords : List K} {vertices : List Nat} {point : List K}
    {X : Fin 4 → Vec K 3} {p : Vec K 3}
    (hX : ∀ j : Fin 4, ∃ v, vertices[j.1]? = some v ∧
      ∀ i : Fin 3, coords[v * 3 + i.1]? = some (X j i))
    (hp : ∀ i : Fin 3, point[i.1]? = some (p i)) (hf : Flat X) :
    isInsideVertices 3 3 coords vertices point = .error .runtime :=
  (isInsideVertices_spec (by omega) hX hp).1 ⟨rfl, hf⟩

/-- C63.  The Python test (Dolfin's `contains`, modelled by the half-spaces behind the facets)
answers the same question. -/
theorem C63_python {M : Mesh K g} {ci : Int} {c : Cell K g} (hc : M.cell ci = some c)
    (hr : c.Regular) (p : Vec K g) :
    ∃ b, M.isInside p ci = .ok b ∧ (b = true ↔ InHull (c.vert hr.verts) p) := by
  refine ⟨c.contains p, ?_, ?_⟩
  · simp only [Mesh.isInside, Mesh.lookup, hc, bind, Except.bind, pure, Except.pure]
  · rw [contains_iff hr, hr.has_iff_hull]

/-- C63.  The Python and the compiled test agree on every point for every non-degenerate cell. -/
theorem C63_agree {M : Mesh K g} {ci : Int} {c : Cell K g} (hc : M.cell ci = some c)
    (hr : c.Regular) {coords : List K} {vertices : List Nat} {point : List K} {p : Vec K g}
    (hX : ∀ (j : Nat) (x : Vec K g), c.verts[j]? = some x → ∃ v, vertices[j]? = some v ∧
      ∀ i : Fin g, coords[v * g + i.1]? = some (x i))
    (hp : ∀ i : Fin g, point[i.1]? = some (p i)) :
    isInsideVertices g g coords vertices point = M.isInside p ci := by
  obtain ⟨b, h1, h2⟩ := C63_python hc hr p
  obtain ⟨b', h3, h4⟩ := C63_inside (X := c.vert hr.verts) hr.dim
    (fun j => hX j.1 _ (List.getElem?_eq_getElem _)) hp (fun _ => hr.not_flat)
  rw [h1, h3]
  congr 1
  exact Bool.eq_iff_iff.2 (h4.trans h2.symm)

/-- A triangle of the unit square stored at positions 0, 3, 2 of the vertex array. -/
example : isInsideVertices 2 2 ([0, 0, 9, 9, 1, 1, 1, 0] : List ℚ) [0, 3, 2] [1/2, 1/4] = .ok true ∧
    isInsideVertices 2 2 ([0, 0, 9, 9, 1, 1, 1, 0] : List ℚ) [0, 3, 2] [1/2, 3/4] = .ok false ∧
    -- three vertices on a line
    isInsideVertices 2 2 ([0, 0, 1, 1, 3, 3] : List ℚ) [0, 1, 2] [2, 2] = .ok true ∧
    isInsideVertices 2 2 ([0, 0, 1, 1, 3, 3] : List ℚ) [0, 1, 2] [4, 4] = .ok false ∧
    isInsideVertices 1 1 ([5, 2] : List ℚ) [0, 1] [3] = .ok true := by decide +kernel

/-- A tetrahedron, and four vertices in a plane. -/
example :
    isInsideVertices 3 3 ([0,0,0, 1,0,0, 0,1,0, 0,0,1] : List ℚ) [0, 1, 2, 3] [1/4, 1/4, 1/4] =
      .ok true ∧
    isInsideVertices 3 3 ([0,0,0, 1,0,0, 0,1,0, 0,0,1] : List ℚ) [0, 2, 1, 3] [1/2, 1/2, 1/4] =
      .ok false ∧
    isInsideVertices 3 3 ([0,0,0, 1,0,0, 0,1,0, 1,1,0] : List ℚ) [0, 2, 1, 3] [1/2, 1/2, 0] =
      .error .runtime := by decide +kernel

/-- The hypotheses of `C63_agree` are met by the triangle `demoTri`. -/
example : isInsideVertices 2 2 (vertexTable demoTri.verts) [0, 1, 2] [1/2, 1/4] =
    demoTriMesh.isInside ![1/2, 1/4] 0 :=
  C63_agree (c := demoTri) rfl demoTri_regular
    (by
      intro j x hj
      have hj3 : j < 3 := by have := (List.getElem?_eq_some_iff.1 hj).1; simpa [demoTri] using this
      refine ⟨j, by interval_cases j <;> rfl, ?_⟩
      intro i
      unfold vertexTable
      rw [flatMap_get (m := 2) _ (fun b => List.length_ofFn) _ _ _ i.2, hj]
      fin_cases i <;> simp)
    (by intro i; fin_cases i <;> rfl)

/-! ## C64 -/

/-- C64.  The compiled `find_facet`, for every start point and move: where the Python function
raises, it raises the same; where the Python function names a facet, it returns the same facet,
fraction and normal; a zero move gives the same answer; a move that crosses no facet (for which
Python returns `NO_FACET`) ends the program in 1D and is undefined behaviour in 2D and 3D. -/
theorem C64_exact {M : Mesh K g} {ci : Int} {c : Cell K g} (hc : M.cell ci = some c)
    (hdim : 1 ≤ g ∧ g ≤ 3) (hv : c.verts.length = g + 1) (hn : c.normals.length = g + 1)
    {cc : CppCell K} (ht : cc.Twin c) (x0 dx : Vec K g) :
    cppFindFacet g cc x0 dx = cppReply g (dot dx dx = 0) (M.findFacet x0 dx ci) :=
  cppFindFacet_eq hc hdim hv hn ht x0 dx

/-- C64.  A move out of the cell from a point of the cell: both functions return the same facet,
the same fraction and the same normal. -/
theorem C64_leaving {M : Mesh K g} {ci : Int} {c : Cell K g} (hc : M.cell ci = some c)
    (hr : c.Regular) {cc : CppCell K} (ht : cc.Twin c) {x0 dx : Vec K g} (hx : c.Has x0)
    (hout : ¬ c.Has (x0 + dx)) :
    ∃ (k : Nat) (f : K) (n : Vec K g), k ≤ g ∧ c.normals[k]? = some n ∧
      M.findFacet x0 dx ci = .ok ((k : Int), f, some n) ∧
      cppFindFacet g cc x0 dx = .ok ((k : Int), f, some n) := by
  have hdx : dx ≠ 0 := by
    rintro rfl
    exact hout (by simpa using hx)
  obtain ⟨facet, f, n, e, h0, h1, hall, hfac, -⟩ := C23_first_facet hc hr hx hdx
  have hne : facet ≠ -1 := by
    intro hneg
    have h2 : f = 1 := by
      obtain ⟨facet', f', n', e', hf, -⟩ := findFacet_ok hc hr hx hdx
      rw [e] at e'
      simp only [Except.ok.injEq, Prod.mk.injEq] at e'
      obtain ⟨a, b, -⟩ := e'
      subst a b
      exact (hf.none_ hneg)
    have := (hall 1 zero_le_one le_rfl).2 (by rw [h2])
    rw [one_smul] at this
    exact hout this
  obtain ⟨k, rfl, hk, -, -, hn, -⟩ := hfac hne
  refine ⟨k, f, n, hk, hn, e, ?_⟩
  rw [C64_exact hc hr.dim hr.verts hr.normals ht, e]
  simp only [cppReply]
  rw [if_neg (by omega)]

/-- C64.  The arrays of the compiled code and the dictionaries of the Python code are built from the
same Dolfin cell, hence describe the same cell. -/
theorem C64_tables (hg : g ≤ 3) (normal : Nat → Vec K 3) (nf : Nat) (c : Cell K g)
    (hn : c.normals = pyNormalTable g hg normal nf) :
    CppCell.Twin ⟨cppNormalTable normal nf, vertexTable c.verts⟩ c :=
  twin_of_tables hg normal nf c hn

/-- The compiled arrays of the triangle `demoTri`. -/
def demoTriCpp : CppCell ℚ := ⟨[1,0,0, -1,1,0, 0,-1,0], [0,0, 1,0, 1,1]⟩

theorem demoTriCpp_twin : demoTriCpp.Twin demoTri := by
  have := C64_tables (K := ℚ) (by omega)
    (fun fi => if fi = 0 then ![1, 0, 0] else if fi = 1 then ![-1, 1, 0] else ![0, -1, 0]) 3 demoTri
    (by simp only [demoTri, pyNormalTable, List.range, List.range.loop, List.map]
        refine List.ext_getElem rfl ?_
        intro i h1 h2
        have : i < 3 := h1
        interval_cases i <;> (funext x; fin_cases x <;> rfl))
  refine cast ?_ this
  congr 1

/-- A move of the triangle's particle to the right: facet 0 is hit after a third of the move. -/
example : (cppFindFacet 2 demoTriCpp ![1/2, 1/4] ![3/2, 0]).toOption.map (fun r => (r.1, r.2.1)) =
    some (0, 1/3) := by decide +kernel

/-- C64 is false for a move inside the cell: Python returns `NO_FACET`, the compiled function reads
outside its array (2D) or ends the program (1D). -/
theorem C64_false_inside_move :
    (demoTriMesh.findFacet ![1/2, 1/4] ![1/10, 0] 0).toOption.map (fun r => (r.1, r.2.1)) =
      some (-1, 1) ∧
    (match cppFindFacet 2 demoTriCpp ![1/2, 1/4] ![1/10, 0] with
      | .error e => some e | .ok _ => none) = some .ub ∧
    (match cppFindFacet 1 (⟨[-1,0,0, 1,0,0], [0, 1]⟩ : CppCell ℚ) ![1/2] ![1/10] with
      | .error e => some e | .ok _ => none) = some .exit := by decide +kernel

end Dt
