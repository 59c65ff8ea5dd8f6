import Verif.Lemmas.Crossed

/-!
# The markers of meshes with crossed diagonals
-/

namespace Dt
open Mark Rect Dt.Topology

namespace Crossed
variable {K : Type} [Field K] {x y : Nat → K} {nr nt i j : Nat} {t : Tri}

theorem facetNo_parts {I J q : Nat} (hI : I ≤ nr) (hq : q < 6) : ¬ facetNo nr (I, J, q) < 0 ∧ facetNo nr (I, J, q) % 6 = q ∧
    (facetNo nr (I, J, q) / 6).toNat % (nr + 1) = I ∧ (facetNo nr (I, J, q) / 6).toNat / (nr + 1) = J := by
  unfold facetNo
  have h1 : (6 * ((vertNo nr I J : Nat) : Int) + (q : Int)) / 6 = (vertNo nr I J : Int) := by omega
  have h2 : (J * (nr + 1) + I) % (nr + 1) = I := by rw [Nat.mul_comm, Nat.mul_add_mod]; exact Nat.mod_eq_of_lt (by omega)
  have h3 : (J * (nr + 1) + I) / (nr + 1) = J := by
    rw [Nat.mul_comm, Nat.mul_add_div (by omega), Nat.div_eq_of_lt (by omega), Nat.add_zero]
  refine ⟨by simp only; omega, by simp only; omega, ?_, ?_⟩ <;> simp only [h1, Int.toNat_natCast]
  · exact h2
  · exact h3

theorem marker_h {pm : RFacet K → Int} {I J : Nat} (hI : I < nr) (hJ : J ≤ nt) :
    markerOf x y nr nt pm (facetNo nr (I, J, 0)) = pm (.h I J) := by
  obtain ⟨h1, h2, h3, h4⟩ := facetNo_parts (J := J) hI.le (by decide : 0 < 6)
  unfold markerOf facetOf
  simp only [h1, h2, h3, h4, if_false]
  rw [if_pos (by rfl), if_pos ⟨hI, hJ⟩]
  rfl

theorem marker_v {pm : RFacet K → Int} {I J : Nat} (hI : I ≤ nr) (hJ : J < nt) :
    markerOf x y nr nt pm (facetNo nr (I, J, 1)) = pm (.v I J) := by
  obtain ⟨h1, h2, h3, h4⟩ := facetNo_parts (J := J) hI (by decide : 1 < 6)
  unfold markerOf facetOf
  simp only [h1, h2, h3, h4, if_false]
  rw [if_neg (by decide), if_pos (by rfl), if_pos ⟨hI, hJ⟩]
  rfl

theorem marker_spoke {pm : RFacet K → Int} (hpm : ∀ a b, pm (.inner a b) = 0) {I J q : Nat} (hI : I < nr) (hJ : J < nt) (hq : q < 4) :
    markerOf x y nr nt pm (facetNo nr (I, J, q + 2)) = 0 := by
  obtain ⟨h1, h2, h3, h4⟩ := facetNo_parts (J := J) hI.le (by omega : q + 2 < 6)
  unfold markerOf facetOf
  simp only [h1, h2, h3, h4, if_false]
  rw [if_neg (by push_cast; omega), if_neg (by push_cast; omega), if_pos ⟨hI, hJ⟩]
  exact hpm _ _

/-- The kinds of facets of a triangle. -/
theorem label_cases {l : Nat × Nat × Nat} (hi : i < nr) (hj : j < nt) (h : l ∈ labels i j t) :
    (∃ I J, l = (I, J, 0) ∧ I < nr ∧ J ≤ nt) ∨ (∃ I J, l = (I, J, 1) ∧ I ≤ nr ∧ J < nt) ∨
      ∃ q, q < 4 ∧ l = (i, j, q + 2) := by
  cases t <;> simp only [labels, List.mem_cons, List.not_mem_nil, or_false] at h <;> rcases h with rfl | rfl | rfl
  · exact .inr (.inr ⟨1, by decide, rfl⟩)
  · exact .inr (.inr ⟨0, by decide, rfl⟩)
  · exact .inl ⟨i, j, rfl, hi, hj.le⟩
  · exact .inr (.inr ⟨2, by decide, rfl⟩)
  · exact .inr (.inr ⟨0, by decide, rfl⟩)
  · exact .inr (.inl ⟨i, j, rfl, hi.le, hj⟩)
  · exact .inr (.inr ⟨3, by decide, rfl⟩)
  · exact .inr (.inr ⟨1, by decide, rfl⟩)
  · exact .inr (.inl ⟨i + 1, j, rfl, hi, hj⟩)
  · exact .inr (.inr ⟨3, by decide, rfl⟩)
  · exact .inr (.inr ⟨2, by decide, rfl⟩)
  · exact .inl ⟨i, j + 1, rfl, hi, hj⟩

end Crossed

end Dt
