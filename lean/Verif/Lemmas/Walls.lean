import Verif.Spec.Walls
import Verif.Props.MeshBuild

/-!
# Meshes built from triangulations with flat walls
-/

namespace Dt
open Dt.Topology Spec
variable {K : Type} [Field K] [LinearOrder K] [IsStrictOrderedRing K] {g : Nat} {ι : Type}
variable {hg : g ≤ 3} {D : DMesh K g} {marker : Int → Int} {M : Mesh K g}

/-- A facet without a neighbour, in the simplex it comes from. -/
theorem outside_built (hD : Triangulation hg D) {junk : Int} (e : buildMesh hg D junk marker = .ok M) {ci : Int} {C : Cell K g}
    (hC : M.cell ci = some C) {k : Nat} {F : Int} (hn : C.neighbors[k]? = some (-1)) (hF : C.facets[k]? = some F) :
    ∃ c row, c.index = ci ∧ Outside D c k F ∧ row.length = c.facets.length ∧ C = made hg D c row := by
  obtain ⟨M', e', -, hinv, -⟩ := build_ok hD.manifold junk marker
  rw [e] at e'
  cases e'
  obtain ⟨c, hc, hi, row, hrow, rfl⟩ := hinv ci C hC
  simp only [made] at hn hF
  have hlen := hrow.length_eq
  have hkl : k < row.length := (List.getElem?_eq_some_iff.1 hn).1
  refine ⟨c, row, hi, ⟨hc, hF, ?_⟩, hlen.symm, rfl⟩
  have hnb : IsNeighbor D.topo ci F (-1) := by
    have := hrow.get (i := k) (by omega) hkl
    have e2 : row[k] = -1 := (List.getElem?_eq_some_iff.1 hn).2
    have e3 : c.facets[k]'(by omega) = F := (List.getElem?_eq_some_iff.1 hF).2
    simp only [List.get_eq_getElem] at this
    rw [e2, e3] at this
    exact this
  intro c' hc' hF'
  rw [hi]
  rcases hnb with ⟨-, h⟩ | ⟨-, fs, hfs, -⟩
  · exact h _ ⟨_, List.mem_map.2 ⟨c', hc', rfl⟩, hF'⟩
  · have := hD.manifold.nonneg _ hfs
    simp at this

theorem boundary_built (hD : Triangulation hg D) {junk : Int} (e : buildMesh hg D junk marker = .ok M) {F : Int} {n : Vec K g} :
    M.Boundary F n ↔ ∃ c k, Outside D c k F ∧ n = cutNormal hg (c.normal k) := by
  constructor
  · rintro ⟨ci, C, k, hC, hF, hnb, hn⟩
    obtain ⟨c, row, -, ho, -, rfl⟩ := outside_built hD e hC hnb hF
    exact ⟨c, k, ho, (normal_get hn).2.symm ▸ rfl⟩
  · rintro ⟨c, k, ⟨hc, hF, hone⟩, rfl⟩
    obtain ⟨M', e', -, hinv, hex⟩ := build_ok hD.manifold junk marker
    rw [e] at e'
    cases e'
    obtain ⟨row0, hC⟩ := hex c hc
    obtain ⟨c1, hc1, hi, row, hrow, he⟩ := hinv _ _ hC
    have hnd : (D.cells.map (·.index)).Nodup := by
      have := hD.manifold.nodup
      rwa [topo_keys] at this
    obtain rfl : c1 = c := List.inj_on_of_nodup_map hnd hc1 hc hi
    rw [he] at hC
    have hlen := hrow.length_eq
    obtain ⟨hkl, hFe⟩ := List.getElem?_eq_some_iff.1 hF
    have hk : k < g + 1 := by
      have := hD.manifold.facets (c1.index, c1.facets) (List.mem_map.2 ⟨c1, hc, rfl⟩)
      dsimp only at this
      omega
    have hnb := hrow.get (i := k) hkl (by omega)
    simp only [List.get_eq_getElem] at hnb
    refine ⟨c1.index, _, k, hC, hF, ?_, ?_⟩
    · show row[k]? = _
      rw [List.getElem?_eq_getElem (by omega : k < row.length)]
      rcases hnb with ⟨h1, -⟩ | ⟨hne, fs, hfs, hmem⟩
      · rw [h1]
      · exfalso
        obtain ⟨c', hc', he⟩ := List.mem_map.1 hfs
        simp only [Prod.mk.injEq] at he
        obtain ⟨h1, rfl⟩ := he
        rw [hFe] at hmem
        exact hne (h1.symm.trans (hone c' hc' hmem))
    · simp only [made, List.getElem?_map]
      rw [List.getElem?_eq_getElem (by rw [List.length_range]; exact hk), List.getElem_range]
      rfl

/-- A facet on the boundary is not between two cells. -/
theorem split_built (hD : Triangulation hg D) {junk : Int} (e : buildMesh hg D junk marker = .ok M) {F : Int} {n : Vec K g}
    (h : M.Boundary F n) : ¬ M.Interior F := by
  obtain ⟨c, k, ⟨hc, hF, hone⟩, -⟩ := (boundary_built hD e).1 h
  rintro ⟨ci, C, k', cj, hC, hF', hn, hne⟩
  obtain ⟨M', e', -, hinv, hex⟩ := build_ok hD.manifold junk marker
  rw [e] at e'
  cases e'
  obtain ⟨c1, hc1, hi, row, hrow, rfl⟩ := hinv _ _ hC
  simp only [made] at hF' hn
  have hlen := hrow.length_eq
  obtain ⟨hkl, hFe⟩ := List.getElem?_eq_some_iff.1 hF'
  obtain ⟨hkr, hre⟩ := List.getElem?_eq_some_iff.1 hn
  have hnb := hrow.get (i := k') hkl hkr
  simp only [List.get_eq_getElem] at hnb
  rw [hFe, hre] at hnb
  rcases hnb with ⟨h1, -⟩ | ⟨h1, fs, hfs, hmem⟩
  · exact hne h1
  · obtain ⟨c', hc', he⟩ := List.mem_map.1 hfs
    simp only [Prod.mk.injEq] at he
    obtain ⟨h2, rfl⟩ := he
    have a1 := hone c' hc' hmem
    have a2 := hone c1 hc1 (List.mem_of_getElem? hF')
    exact h1 (by rw [← h2, ← hi, a1, a2])

theorem walled_built (hD : Triangulation hg D) {junk : Int} (e : buildMesh hg D junk marker = .ok M) {walls : ι → Wall K g}
    {wallOf : Int → ι} (hW : FlatWalls hg D walls wallOf) : Walled M walls wallOf := by
  refine ⟨?_, ?_, ?_⟩
  · intro F n hB
    obtain ⟨c, k, ho, rfl⟩ := (boundary_built hD e).1 hB
    exact (hW.normal c k F ho).symm
  · intro F n hB
    obtain ⟨c, k, ho, rfl⟩ := (boundary_built hD e).1 hB
    rw [hW.normal c k F ho]
    exact hW.unit c k F ho
  · intro ci C k F q hC hn hF hq hp
    obtain ⟨c, row, -, ho, hlen, rfl⟩ := outside_built hD e hC hn hF
    refine hW.on c k F ho q ((made_has hD ho.1 hlen q).1 hq) fun i hi => ?_
    have hk : k < g + 1 := by
      have := hD.manifold.facets (c.index, c.facets) (List.mem_map.2 ⟨c, ho.1, rfl⟩)
      have h2 := (List.getElem?_eq_some_iff.1 ho.2.1).1
      dsimp only at this
      omega
    refine hp _ _ i.1 ?_ ?_ hi
    · simp only [made, List.getElem?_map]
      rw [List.getElem?_eq_getElem (by rw [List.length_range]; exact hk), List.getElem_range]
      rfl
    · have hil : i.1 < c.verts.length := by rw [hD.corners c ho.1]; exact i.2
      simp only [made, List.getElem?_map]
      unfold corner
      rw [List.getElem?_eq_getElem hil]
      rfl

end Dt
