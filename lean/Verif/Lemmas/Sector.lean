import Verif.Model.Sector
import Verif.Props.RectBuild

/-!
# Triangle meshes with moved vertices
-/

set_option linter.unusedSectionVars false

namespace Dt
open Dt.Topology Spec Rect
variable {K : Type} [Field K] [LinearOrder K] [IsStrictOrderedRing K]

namespace Sector

/-- The part of `Triangulation` that does not depend on coordinates. -/
structure Frame (D : DMesh K 2) : Prop where
  manifold : Manifold D.topo (2 + 1)
  facetNo : ∀ c ∈ D.cells, ∀ F ∈ c.facets, 0 ≤ F
  corners : ∀ c ∈ D.cells, c.verts.length = 2 + 1
  same : ∀ c ∈ D.cells, ∀ c' ∈ D.cells, ∀ k k' F, c.facets[k]? = some F → c'.facets[k']? = some F →
    ∀ v, OfFacet 2 c k v ↔ OfFacet 2 c' k' v

/-- Twice the area of a triangle, with sign. -/
def area (a b c : Vec K 2) : K := (b 0 - a 0) * (c 1 - a 1) - (b 1 - a 1) * (c 0 - a 0)

section
variable {sqrt : K → K} (hsq : ∀ u, 0 < u → 0 < sqrt u)
include hsq

theorem triNormal_perp (p0 p1 p2 : Vec K 2) :
    dot (cutNormal (by decide : 2 ≤ 3) (triNormal sqrt p0 p1 p2)) (p2 - p1) = 0 := by
  rw [dotP]
  simp only [cutNormal, triNormal, dotP]
  simp
  ring

theorem triNormal_out {p0 p1 p2 : Vec K 2} (h : area p0 p1 p2 ≠ 0) :
    dot (cutNormal (by decide : 2 ≤ 3) (triNormal sqrt p0 p1 p2)) (p0 - p2) < 0 := by
  have hpos : 0 < (area p0 p1 p2) ^ 2 := by positivity
  have ht : 0 < dot (p2 - p1) (p2 - p1) := by
    rw [dotP]
    simp only [Pi.sub_apply]
    by_contra hc
    have h0 : p2 0 - p1 0 = 0 := by nlinarith [sq_nonneg (p2 0 - p1 0), sq_nonneg (p2 1 - p1 1)]
    have h1 : p2 1 - p1 1 = 0 := by nlinarith [sq_nonneg (p2 0 - p1 0), sq_nonneg (p2 1 - p1 1)]
    apply h
    unfold area
    linear_combination (p1 0 - p0 0) * h1 - (p1 1 - p0 1) * h0
  set n : Vec K 2 := dot (p2 - p1) (p2 - p1) • (p2 - p0) - dot (p2 - p0) (p2 - p1) • (p2 - p1) with hn
  have e1 : n 0 * (p0 0 - p2 0) + n 1 * (p0 1 - p2 1) = -(area p0 p1 p2) ^ 2 := by
    rw [hn]
    simp only [dotP, area, Pi.sub_apply, Pi.smul_apply, smul_eq_mul]
    ring
  have hnn : 0 < dot n n := by
    rw [dotP]
    by_contra hc
    have h0 : n 0 = 0 := by nlinarith [sq_nonneg (n 0), sq_nonneg (n 1)]
    have h1 : n 1 = 0 := by nlinarith [sq_nonneg (n 0), sq_nonneg (n 1)]
    rw [h0, h1] at e1
    linarith
  have hs := hsq _ hnn
  have : dot (cutNormal (by decide : 2 ≤ 3) (triNormal sqrt p0 p1 p2)) (p0 - p2) =
      (n 0 * (p0 0 - p2 0) + n 1 * (p0 1 - p2 1)) / sqrt (dot n n) := by
    rw [dotP]
    simp only [cutNormal, triNormal, ← hn]
    simp
    ring
  rw [this, e1]
  exact div_neg_of_neg_of_pos (by linarith) hs

/-- A mesh with moved vertices is a triangulation if no triangle is flat and the triangles do not overlap. -/
theorem redraw_triangulation {D : DMesh K 2} (hD : Frame D) {f : Vec K 2 → Vec K 2}
    (harea : ∀ c ∈ D.cells, area (f (corner D c 0)) (f (corner D c 1)) (f (corner D c 2)) ≠ 0)
    (hdis : ∀ c ∈ D.cells, ∀ c' ∈ D.cells, c.index ≠ c'.index →
      ∀ p, ¬ (InInterior (fun i => f (corner D c i)) p ∧ InInterior (fun i => f (corner D c' i)) p)) :
    Triangulation (by decide : 2 ≤ 3) (redraw sqrt f D) := by
  have htopo : (redraw sqrt f D).topo = D.topo := by
    simp [DMesh.topo, redraw, facetDict, List.map_map, Function.comp_def]
  have hmem : ∀ c ∈ (redraw sqrt f D).cells, ∃ c0 ∈ D.cells, c.index = c0.index ∧ c.verts = c0.verts ∧ c.facets = c0.facets ∧
      c.normal = normals sqrt (fun i => f (D.coord ((c0.verts[i]?).getD 0))) := by
    intro c hc
    obtain ⟨c0, h0, rfl⟩ := List.mem_map.1 hc
    exact ⟨c0, h0, rfl, rfl, rfl, rfl⟩
  have hcor : ∀ c c0 : DSimplex K, c.verts = c0.verts → corner (redraw sqrt f D) c = fun i => f (corner D c0 i) := by
    intro c c0 h
    funext i
    simp only [corner, redraw, h]
  have hof : ∀ (c c0 : DSimplex K), c.verts = c0.verts → ∀ k v, OfFacet 2 c k v ↔ OfFacet 2 c0 k v := by
    intro c c0 h k v
    unfold OfFacet
    rw [h]
  refine ⟨by decide, htopo ▸ hD.manifold, ?_, ?_, ?_, ?_, ?_, ?_⟩
  · intro c hc F hF
    obtain ⟨c0, h0, -, -, h3, -⟩ := hmem c hc
    exact hD.facetNo c0 h0 F (h3 ▸ hF)
  · intro c hc
    obtain ⟨c0, h0, -, h2, -, -⟩ := hmem c hc
    rw [h2]
    exact hD.corners c0 h0
  · intro c hc c' hc' k k' F hk hk' v
    obtain ⟨c0, h0, -, h2, h3, -⟩ := hmem c hc
    obtain ⟨c1, h0', -, h2', h3', -⟩ := hmem c' hc'
    rw [hof c c0 h2, hof c' c1 h2']
    exact hD.same c0 h0 c1 h0' k k' F (h3 ▸ hk) (h3' ▸ hk') v
  · intro c hc k i j hi hj
    obtain ⟨c0, h0, -, h2, -, h4⟩ := hmem c hc
    rw [hcor c c0 h2, h4]
    have hp : ∀ i : Fin 3, f (D.coord ((c0.verts[i.1]?).getD 0)) = f (corner D c0 i) := fun i => rfl
    have anti : ∀ n a b : Vec K 2, dot n (a - b) = 0 → dot n (b - a) = 0 := by
      intro n a b h
      rw [dotP] at h ⊢
      simp only [Pi.sub_apply] at h ⊢
      linear_combination -h
    have self : ∀ n a : Vec K 2, dot n (a - a) = 0 := by intro n a; simp [dot]
    unfold onFacet at hi hj
    rw [if_neg (by decide)] at hi hj
    have P := triNormal_perp hsq
    fin_cases k <;> fin_cases i <;> fin_cases j <;>
      first
      | (exact absurd rfl hi)
      | (exact absurd rfl hj)
      | (exact self _ _)
      | (exact P _ _ _)
      | (exact anti _ _ _ (P _ _ _))
  · intro c hc k i j hi hj
    obtain ⟨c0, h0, -, h2, -, h4⟩ := hmem c hc
    rw [hcor c c0 h2, h4]
    unfold onFacet at hi hj
    rw [if_neg (by decide)] at hi hj
    have hj' : j = k := by
      by_contra h
      exact hj (fun h' => h (Fin.ext h'))
    subst hj'
    have ha := harea c0 h0
    have a1 : ∀ a b c : Vec K 2, area a b c ≠ 0 → area b a c ≠ 0 := by
      intro a b c h h'
      apply h
      unfold area at h' ⊢
      linear_combination -h'
    have a2 : ∀ a b c : Vec K 2, area a b c ≠ 0 → area c a b ≠ 0 := by
      intro a b c h h'
      apply h
      unfold area at h' ⊢
      linear_combination h'
    have O : ∀ p0 p1 p2 : Vec K 2, area p0 p1 p2 ≠ 0 →
        dot (cutNormal (by decide : 2 ≤ 3) (triNormal sqrt p0 p1 p2)) (p0 - p1) < 0 := by
      intro p0 p1 p2 h
      have e1 := triNormal_out hsq h
      have e2 := triNormal_perp hsq p0 p1 p2
      rw [dotP] at e1 e2 ⊢
      simp only [Pi.sub_apply] at e1 e2 ⊢
      linarith
    have P := fun p0 p1 p2 => triNormal_out (p0 := p0) (p1 := p1) (p2 := p2) hsq
    fin_cases j <;> fin_cases i <;>
      first
      | (exact absurd rfl hi)
      | (exact O _ _ _ ha)
      | (exact P _ _ _ ha)
      | (exact O _ _ _ (a1 _ _ _ ha))
      | (exact P _ _ _ (a1 _ _ _ ha))
      | (exact O _ _ _ (a2 _ _ _ ha))
      | (exact P _ _ _ (a2 _ _ _ ha))
  · intro c hc c' hc' hne p hp
    obtain ⟨c0, h0, h1, h2, -, -⟩ := hmem c hc
    obtain ⟨c1, h0', h1', h2', -, -⟩ := hmem c' hc'
    rw [hcor c c0 h2, hcor c' c1 h2'] at hp
    exact hdis c0 h0 c1 h0' (by rw [← h1, ← h1']; exact hne) p hp

end

/-! ### The rectangle -/

/-- The ends of an edge of box `(i, j)`. -/
def ends (d : Nat → Nat → Bool) (nx i j : Nat) : Edge → Nat × Nat
  | .left => (vertNo nx i j, vertNo nx i (j + 1))
  | .right => (vertNo nx (i + 1) j, vertNo nx (i + 1) (j + 1))
  | .bottom => (vertNo nx i j, vertNo nx (i + 1) j)
  | .top => (vertNo nx i (j + 1), vertNo nx (i + 1) (j + 1))
  | .diag => if d i j then (vertNo nx i j, vertNo nx (i + 1) (j + 1)) else (vertNo nx (i + 1) j, vertNo nx i (j + 1))

section
variable {x y : Nat → K} {d : Nat → Nat → Bool} {nx ny i j i' j' : Nat} {s s' : Bool}

theorem get3 (a b e : Nat) (j : Nat) (w : Nat) : [a, b, e][j]? = some w ↔ (j = 0 ∧ a = w) ∨ (j = 1 ∧ b = w) ∨ (j = 2 ∧ e = w) := by
  match j with
  | 0 => simp
  | 1 => simp
  | 2 => simp
  | j + 3 => simp

theorem ofFacet3 {c : DSimplex K} {a b e : Nat} (h : c.verts = [a, b, e]) (k v : Nat) :
    OfFacet 2 c k v ↔ (k ≠ 0 ∧ a = v) ∨ (k ≠ 1 ∧ b = v) ∨ (k ≠ 2 ∧ e = v) := by
  unfold OfFacet onFacet
  simp only [h, get3, if_neg (by decide : ¬ 2 = 1)]
  constructor
  · rintro ⟨j, hj, ⟨rfl, h⟩ | ⟨rfl, h⟩ | ⟨rfl, h⟩⟩
    · exact .inl ⟨Ne.symm hj, h⟩
    · exact .inr (.inl ⟨Ne.symm hj, h⟩)
    · exact .inr (.inr ⟨Ne.symm hj, h⟩)
  · rintro (⟨hk, h⟩ | ⟨hk, h⟩ | ⟨hk, h⟩)
    · exact ⟨0, Ne.symm hk, .inl ⟨rfl, h⟩⟩
    · exact ⟨1, Ne.symm hk, .inr (.inl ⟨rfl, h⟩)⟩
    · exact ⟨2, Ne.symm hk, .inr (.inr ⟨rfl, h⟩)⟩

theorem ofFacet_ends {k : Nat} {e : Edge} (he : (edges (d i j) s)[k]? = some e) (v : Nat) :
    OfFacet 2 (simplex x y d nx i j s) k v ↔ v = (ends d nx i j e).1 ∨ v = (ends d nx i j e).2 := by
  have hk : k < 3 := by
    have := (List.getElem?_eq_some_iff.1 he).1
    rwa [edges_length] at this
  cases hd : d i j <;> rw [hd] at he <;> cases s <;> interval_cases k <;> cases he <;>
    (rw [ofFacet3 (by simp only [simplex, hd, cornerNos]; rfl)]; simp [ends, hd, eq_comm])

theorem ends_same {e e' : Edge} (hi : i < nx) (hi' : i' < nx) (h : edgeNo nx i j e = edgeNo nx i' j' e') :
    ends d nx i j e = ends d nx i' j' e' := by
  rcases edgeNo_inj hi hi' h with ⟨rfl, rfl, rfl⟩ | ⟨rfl, rfl, rfl, rfl⟩ | ⟨rfl, rfl, rfl, rfl⟩ |
      ⟨rfl, rfl, rfl, rfl⟩ | ⟨rfl, rfl, rfl, rfl⟩ <;> rfl

theorem facet_edge {k : Nat} {F : Int} (h : (simplex x y d nx i j s).facets[k]? = some F) :
    ∃ e, (edges (d i j) s)[k]? = some e ∧ edgeNo nx i j e = F := by
  simp only [simplex, List.getElem?_map, Option.map_eq_some_iff] at h
  exact h

theorem dmesh_frame (x y : Nat → K) (d : Nat → Nat → Bool) (nx ny : Nat) : Frame (dmesh x y d nx ny) := by
  refine ⟨manifold x y d nx ny, ?_, ?_, ?_⟩
  · intro c hc F hF
    obtain ⟨i, j, s, -, -, rfl⟩ := mem_simplices.1 hc
    obtain ⟨e, -, rfl⟩ := List.mem_map.1 hF
    exact edgeNo_nonneg e
  · intro c hc
    obtain ⟨i, j, s, -, -, rfl⟩ := mem_simplices.1 hc
    simp only [simplex]
    cases d i j <;> cases s <;> rfl
  · intro c hc c' hc' k k' F hk hk' v
    obtain ⟨i, j, s, hi, hj, rfl⟩ := mem_simplices.1 hc
    obtain ⟨i', j', s', hi', hj', rfl⟩ := mem_simplices.1 hc'
    obtain ⟨e, he, rfl⟩ := facet_edge hk
    obtain ⟨e', he', h⟩ := facet_edge hk'
    rw [ofFacet_ends he, ofFacet_ends he', ends_same hi hi' h.symm]

end

end Sector
end Dt
