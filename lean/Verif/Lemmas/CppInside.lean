import Mathlib.LinearAlgebra.Matrix.ToLinearEquiv
import Mathlib.LinearAlgebra.Matrix.Determinant.Basic
import Verif.Lemmas.CppGeometry

set_option linter.unusedSectionVars false

namespace Dt
variable {K : Type} [Field K] [LinearOrder K] [IsStrictOrderedRing K]

theorem orient3d_det (p0 p1 p2 p3 : Vec K 3) :
    orient3d p0 p1 p2 p3 =
      Matrix.det (Matrix.of ![![p0 0 - p3 0, p1 0 - p3 0, p2 0 - p3 0],
        ![p0 1 - p3 1, p1 1 - p3 1, p2 1 - p3 1], ![p0 2 - p3 2, p1 2 - p3 2, p2 2 - p3 2]]) := by
  rw [Matrix.det_fin_three]
  simp only [Matrix.of_apply, Matrix.cons_val', Matrix.cons_val_zero, Matrix.cons_val_one,
    Matrix.cons_val, orient3d]
  ring

/-- The determinant vanishes exactly for four points in a plane. -/
theorem orient3d_zero_iff (p0 p1 p2 p3 : Vec K 3) :
    orient3d p0 p1 p2 p3 = 0 ↔ Flat ![p0, p1, p2, p3] := by
  rw [orient3d_det, ← Matrix.exists_mulVec_eq_zero_iff]
  constructor
  · rintro ⟨v, hv, h⟩
    refine ⟨![v 0, v 1, v 2, -(v 0 + v 1 + v 2)], ?_, ?_, ?_⟩
    · intro h0
      apply hv
      funext i
      fin_cases i
      · simpa using congrFun h0 0
      · simpa using congrFun h0 1
      · simpa using congrFun h0 2
    · simp [Fin.sum_univ_four]
    · intro c
      have := congrFun h c
      simp only [Matrix.mulVec, dotProduct, Fin.sum_univ_three, Pi.zero_apply] at this
      simp only [Fin.sum_univ_four, Matrix.cons_val_zero, Matrix.cons_val_one, Matrix.cons_val]
      fin_cases c <;> simp at this ⊢ <;> linear_combination this
  · rintro ⟨w, hw, hs, h⟩
    rw [Fin.sum_univ_four] at hs
    refine ⟨![w 0, w 1, w 2], ?_, ?_⟩
    · intro h0
      apply hw
      have e0 : w 0 = 0 := by simpa using congrFun h0 0
      have e1 : w 1 = 0 := by simpa using congrFun h0 1
      have e2 : w 2 = 0 := by simpa using congrFun h0 2
      have e3 : w 3 = 0 := by rw [e0, e1, e2] at hs; simpa using hs
      funext i
      fin_cases i
      · exact e0
      · exact e1
      · exact e2
      · exact e3
    · funext c
      have := h c
      simp only [Fin.sum_univ_four, Matrix.cons_val_zero, Matrix.cons_val_one, Matrix.cons_val] at this
      simp only [Matrix.mulVec, dotProduct, Fin.sum_univ_three, Pi.zero_apply]
      fin_cases c <;> simp at this ⊢
      · linear_combination this - p3 0 * hs
      · linear_combination this - p3 1 * hs
      · linear_combination this - p3 2 * hs

theorem not_flat_of_dual {g : Nat} (v n : Fin (g + 1) → Vec K g) (hg : 1 ≤ g)
    (plane : ∀ k i j, i ≠ k → j ≠ k → dot (n k) (v j - v i) = 0)
    (behind : ∀ k i, i ≠ k → dot (n k) (v k - v i) < 0) : ¬ Flat v := by
  rintro ⟨w, hw, hs, h⟩
  apply hw
  funext k
  obtain ⟨i, hi⟩ : ∃ i : Fin (g + 1), i ≠ k := by
    by_cases hk : k = 0
    · exact ⟨⟨1, by omega⟩, by rw [hk]; simp [Fin.ext_iff]⟩
    · exact ⟨0, fun e => hk e.symm⟩
  have e : (∑ j, w j • (v j - v i)) = 0 := by
    funext x
    simp only [Finset.sum_apply, Pi.smul_apply, Pi.sub_apply, smul_eq_mul, Pi.zero_apply]
    have e : ∑ j, w j * (v j x - v i x) = ∑ j, w j * v j x - (∑ j, w j) * v i x := by
      rw [Finset.sum_mul, ← Finset.sum_sub_distrib]
      refine Finset.sum_congr rfl (fun j _ => by ring)
    rw [e, hs, h x]; ring
  have h1 : dot (n k) (∑ j, w j • (v j - v i)) = 0 := by rw [e, dot_zero]
  rw [dot_sum, Finset.sum_eq_single k] at h1
  · rcases mul_eq_zero.1 h1 with h | h
    · exact h
    · exact absurd h (ne_of_lt (behind k i hi))
  · intro j _ hj
    rw [plane k i j hi hj, mul_zero]
  · intro h; exact absurd (Finset.mem_univ _) h

/-- Normals numbered by the opposite vertex. -/
theorem Cell.Regular.dual {g : Nat} {c : Cell K g} (h : c.Regular) :
    ∃ n : Fin (g + 1) → Vec K g,
      (∀ k i j, i ≠ k → j ≠ k → dot (n k) (c.vert h.verts j - c.vert h.verts i) = 0) ∧
      (∀ k i, i ≠ k → dot (n k) (c.vert h.verts k - c.vert h.verts i) < 0) := by
  have hlen := h.verts
  have hnlen := h.normals
  let opp : Fin (g + 1) → Fin (g + 1) := fun k => if g = 1 then Fin.rev k else k
  have hon : ∀ k i : Fin (g + 1), onFacet g (opp k).1 i.1 ↔ i ≠ k := by
    intro k i
    unfold onFacet
    by_cases hg : g = 1
    · subst hg
      simp only [opp, if_true]
      revert i k; decide
    · simp only [opp, if_neg hg, ne_eq, Fin.ext_iff]
  let n : Fin (g + 1) → Vec K g := fun k => c.normals[(opp k).1]'(by rw [hnlen]; exact (opp k).2)
  have hn : ∀ k, c.normals[(opp k).1]? = some (n k) := fun k =>
    List.getElem?_eq_getElem _
  have hv : ∀ k : Fin (g + 1), c.verts[k.1]? = some (c.vert hlen k) := fun k =>
    List.getElem?_eq_getElem _
  refine ⟨n, ?_, ?_⟩
  · intro k i j hi hj
    exact h.plane _ _ _ _ _ _ (hn k) (hv i) (hv j) ((hon k i).2 hi) ((hon k j).2 hj)
  · intro k i hi
    exact h.behind _ _ _ _ _ _ (hn k) (hv i) (hv k) ((hon k i).2 hi) (fun hh => (hon k k).1 hh rfl)

theorem Cell.Regular.not_flat {g : Nat} {c : Cell K g} (h : c.Regular) : ¬ Flat (c.vert h.verts) := by
  obtain ⟨n, h1, h2⟩ := h.dual
  exact not_flat_of_dual _ n h.dim.1 h1 h2

theorem fin2_eta {β : Type} (f : Fin 2 → β) : f = ![f 0, f 1] := by
  funext i; fin_cases i <;> rfl
theorem fin3_eta {β : Type} (f : Fin 3 → β) : f = ![f 0, f 1, f 2] := by
  funext i; fin_cases i <;> rfl
theorem fin4_eta {β : Type} (f : Fin 4 → β) : f = ![f 0, f 1, f 2, f 3] := by
  funext i; fin_cases i <;> rfl

/-- The compiled test on arrays. -/
theorem isInsideVertices_spec {g : Nat} (hg : 1 ≤ g ∧ g ≤ 3) {coords : List K} {vertices : List Nat}
    {point : List K} {X : Fin (g + 1) → Vec K g} {p : Vec K g}
    (hX : ∀ j : Fin (g + 1), ∃ v, vertices[j.1]? = some v ∧
      ∀ i : Fin g, coords[v * g + i.1]? = some (X j i))
    (hp : ∀ i : Fin g, point[i.1]? = some (p i)) :
    (g = 3 ∧ Flat X → isInsideVertices g g coords vertices point = .error .runtime) ∧
    (¬ (g = 3 ∧ Flat X) → ∃ b, isInsideVertices g g coords vertices point = .ok b ∧
      (b = true ↔ InHull X p)) := by
  rcases dim_cases hg with rfl | rfl | rfl
  · refine ⟨fun h => by simp at h, fun _ => ?_⟩
    obtain ⟨v0, e0, c0⟩ := hX 0
    obtain ⟨v1, e1, c1⟩ := hX 1
    have c0 := c0 0; have c1 := c1 0
    have hp0 := hp 0
    simp only [Fin.val_zero, Nat.mul_one, Nat.add_zero, Fin.val_one] at c0 c1 hp0 e0 e1
    refine ⟨between (X 0 0) (X 1 0) (p 0), ?_, ?_⟩
    · unfold isInsideVertices
      rw [if_pos ⟨rfl, rfl⟩, show (0 : Int) = ((0 : Nat) : Int) from rfl,
        show (1 : Int) = ((1 : Nat) : Int) from rfl, cGet_of e0, cGet_of e1]
      simp only [bind, Except.bind]
      rw [cGet_of c0, cGet_of c1, cGet_of hp0]; rfl
    · rw [← inHull2, ← fin2_eta X]
  · refine ⟨fun h => by simp at h, fun _ => ?_⟩
    obtain ⟨v0, e0, c0⟩ := hX 0
    obtain ⟨v1, e1, c1⟩ := hX 1
    obtain ⟨v2, e2, c2⟩ := hX 2
    simp only [Fin.val_zero, Fin.val_one, Fin.val_two] at e0 e1 e2
    refine ⟨insideTriangle (X 0) (X 1) (X 2) p, ?_, ?_⟩
    · unfold isInsideVertices
      rw [if_neg (by simp), if_pos ⟨rfl, rfl⟩, show (0 : Int) = ((0 : Nat) : Int) from rfl,
        show (1 : Int) = ((1 : Nat) : Int) from rfl, show (2 : Int) = ((2 : Nat) : Int) from rfl,
        cGet_of e0, cGet_of e1, cGet_of e2]
      simp only [bind, Except.bind]
      rw [loadVec_of (by omega) c0, loadVec_of (by omega) c1, loadVec_of (by omega) c2,
        loadVec_of (by omega) (off := 0) (by intro i; rw [Nat.zero_add]; exact hp i)]
      rfl
    · rw [insideTriangle_iff, ← fin3_eta X]
  · obtain ⟨v0, e0, c0⟩ := hX 0
    obtain ⟨v1, e1, c1⟩ := hX 1
    obtain ⟨v2, e2, c2⟩ := hX 2
    obtain ⟨v3, e3, c3⟩ := hX 3
    have e3 : vertices[3]? = some v3 := e3
    simp only [Fin.val_zero, Fin.val_one, Fin.val_two] at e0 e1 e2
    have e : isInsideVertices 3 3 coords vertices point =
        insideTetra (X 0) (X 1) (X 2) (X 3) p := by
      unfold isInsideVertices
      rw [if_neg (by simp), if_neg (by simp), if_pos ⟨rfl, rfl⟩,
        show (0 : Int) = ((0 : Nat) : Int) from rfl,
        show (1 : Int) = ((1 : Nat) : Int) from rfl, show (2 : Int) = ((2 : Nat) : Int) from rfl,
        show (3 : Int) = ((3 : Nat) : Int) from rfl,
        cGet_of e0, cGet_of e1, cGet_of e2, cGet_of e3]
      simp only [bind, Except.bind]
      rw [loadVec_of (by omega) c0, loadVec_of (by omega) c1, loadVec_of (by omega) c2,
        loadVec_of (by omega) c3,
        loadVec_of (by omega) (off := 0) (by intro i; rw [Nat.zero_add]; exact hp i)]
    rw [e]
    constructor
    · rintro ⟨-, hf⟩
      rw [fin4_eta X] at hf
      have := (orient3d_zero_iff _ _ _ _).2 hf
      unfold insideTetra
      dsimp only
      rw [this, if_neg (lt_irrefl _), if_neg (lt_irrefl _)]
    · intro hf
      have : orient3d (X 0) (X 1) (X 2) (X 3) ≠ 0 := by
        intro h0
        refine hf ⟨rfl, ?_⟩
        rw [fin4_eta X]
        exact (orient3d_zero_iff _ _ _ _).1 h0
      obtain ⟨b, hb, hi⟩ := insideTetra_iff p this
      refine ⟨b, hb, ?_⟩
      rw [hi, ← fin4_eta X]

end Dt
