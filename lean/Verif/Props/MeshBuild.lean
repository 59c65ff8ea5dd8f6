import Verif.Lemmas.MeshBuild
import Verif.Props.Mesh
import Verif.Props.Locate

/-!
# Meshes made from triangulations (C88)
-/

set_option linter.unusedSectionVars false

namespace Dt
open Dt.Topology Spec
variable {K : Type} [Field K] [LinearOrder K] [IsStrictOrderedRing K] {g p : Nat} {τ ρ : Type}

/-! ### Dictionaries -/

theorem lookup_iff {β : Type} {l : List (Int × β)} (h : (l.map (·.1)).Nodup) (k : Int) (b : β) :
    l.lookup k = some b ↔ (k, b) ∈ l := by
  induction l with
  | nil => simp
  | cons a l ih =>
    rw [List.map_cons, List.nodup_cons] at h
    obtain ⟨a1, a2⟩ := a
    rw [List.lookup_cons]
    by_cases hk : k = a1
    · subst hk
      simp only [beq_self_eq_true, Option.some.injEq, List.mem_cons, Prod.mk.injEq, true_and]
      constructor
      · intro e; exact .inl e.symm
      · rintro (e | e)
        · exact e.symm
        · exact absurd (List.mem_map.2 ⟨_, e, rfl⟩) h.1
    · have : (k == a1) = false := by simpa using hk
      simp only [this, ih h.2, List.mem_cons, Prod.mk.injEq]
      constructor
      · exact .inr
      · rintro (e | e)
        · exact absurd e.1 hk
        · exact e

theorem dictGet_iff {β : Type} {l : List (Int × β)} (h : (l.map (·.1)).Nodup) (k : Int) (b : β) :
    dictGet l k = some b ↔ (k, b) ∈ l := by
  unfold dictGet
  rw [lookup_iff (by rw [List.map_reverse]; exact List.nodup_reverse.2 h), List.mem_reverse]

theorem table_keys {T : Topo} {tab : List (Int × List Int)} (h : IsTable T tab) :
    tab.map (·.1) = T.cells.map (·.1) := by
  unfold IsTable at h
  generalize T.cells = cs at h
  induction h with
  | nil => rfl
  | cons hd _ ih => rw [List.map_cons, List.map_cons, ih, hd.1]

theorem table_row {T : Topo} {tab : List (Int × List Int)} (h : IsTable T tab) {c : Int × List Int} (hc : c ∈ T.cells) :
    ∃ row, (c.1, row) ∈ tab ∧ List.Forall₂ (IsNeighbor T c.1) c.2 row := by
  unfold IsTable at h
  generalize T.cells = cs at h hc
  induction h with
  | nil => cases hc
  | @cons a r _ _ hd _ ih =>
    rcases List.mem_cons.1 hc with rfl | hc
    · exact ⟨r.2, by rw [← hd.1]; exact List.mem_cons_self .., hd.2⟩
    · obtain ⟨row, h1, h2⟩ := ih hc
      exact ⟨row, List.mem_cons_of_mem _ h1, h2⟩

section
variable {hg : g ≤ 3} {D : DMesh K g} {junk : Int} {marker : Int → Int}

/-- The cell made of `c` with the neighbours `row`. -/
def made (hg : g ≤ 3) (D : DMesh K g) (c : DSimplex K) (row : List Int) : Cell K g :=
  ⟨c.verts.map D.coord, (List.range (g + 1)).map (fun fi => cutNormal hg (c.normal fi)), c.facets, row⟩

theorem topo_keys (D : DMesh K g) : (D.topo.cells.map (·.1)) = D.cells.map (·.index) := by
  simp [DMesh.topo, facetDict, List.map_map, Function.comp_def]

theorem build_ok (hD : Manifold D.topo (g + 1)) (junk : Int) (marker : Int → Int) :
    ∃ M, buildMesh hg D junk marker = .ok M ∧ M.marker = marker ∧
      (∀ ci C, M.cell ci = some C → ∃ c ∈ D.cells, c.index = ci ∧
        ∃ row, List.Forall₂ (IsNeighbor D.topo ci) c.facets row ∧ C = made hg D c row) ∧
      ∀ c ∈ D.cells, ∃ row, M.cell c.index = some (made hg D c row) := by
  obtain ⟨tab, e, -, ht⟩ := C30_tables hD junk junk
  have hk := hD.nodup
  rw [topo_keys] at hk
  have k1 : ((cellDict D).map (·.1)).Nodup := by
    simpa [cellDict, List.map_map, Function.comp_def] using hk
  have k2 : ((facetDict D).map (·.1)).Nodup := by
    simpa [facetDict, List.map_map, Function.comp_def] using hk
  have k3 : ((normalDict hg D).map (·.1)).Nodup := by
    simpa [normalDict, List.map_map, Function.comp_def] using hk
  have k4 : (tab.map (·.1)).Nodup := by rw [table_keys ht]; exact hD.nodup
  have uniq : ∀ c ∈ D.cells, ∀ c' ∈ D.cells, c.index = c'.index → c = c' := fun c hc c' hc' he =>
    List.inj_on_of_nodup_map hk hc hc' he
  have get : ∀ c ∈ D.cells, ∀ row, (c.index, row) ∈ tab →
      dictGet (cellDict D) c.index = some c ∧ dictGet (facetDict D) c.index = some c.facets ∧
      dictGet tab c.index = some row ∧ dictGet (normalDict hg D) c.index =
        some ((List.range (g + 1)).map (fun fi => cutNormal hg (c.normal fi))) := by
    intro c hc row hrow
    refine ⟨(dictGet_iff k1 _ _).2 ?_, (dictGet_iff k2 _ _).2 ?_, (dictGet_iff k4 _ _).2 hrow, (dictGet_iff k3 _ _).2 ?_⟩
    · exact List.mem_map.2 ⟨c, hc, rfl⟩
    · exact List.mem_map.2 ⟨c, hc, rfl⟩
    · exact List.mem_map.2 ⟨c, hc, rfl⟩
  refine ⟨_, by unfold buildMesh; rw [e]; rfl, rfl, ?_, ?_⟩
  · intro ci C hC
    dsimp only at hC
    cases h1 : dictGet (cellDict D) ci with
    | none => rw [h1] at hC; cases hC
    | some c =>
      obtain ⟨c', hc', he⟩ := List.mem_map.1 ((dictGet_iff k1 _ _).1 h1)
      simp only [Prod.mk.injEq] at he
      obtain ⟨rfl, rfl⟩ := he
      obtain ⟨row, r1, r2⟩ := table_row ht (c := (c'.index, c'.facets)) (List.mem_map.2 ⟨c', hc', rfl⟩)
      obtain ⟨g1, g2, g3, g4⟩ := get c' hc' row r1
      rw [g1, g2, g3, g4] at hC
      simp only [bind, Option.bind, pure, Option.some.injEq] at hC
      exact ⟨c', hc', rfl, row, r2, hC.symm⟩
  · intro c hc
    obtain ⟨row, r1, r2⟩ := table_row ht (c := (c.index, c.facets)) (List.mem_map.2 ⟨c, hc, rfl⟩)
    obtain ⟨g1, g2, g3, g4⟩ := get c hc row r1
    refine ⟨row, ?_⟩
    dsimp only
    rw [g1, g2, g3, g4]
    rfl

/-! ### Geometry -/

/-- The facet opposite to a vertex. -/
def oppo (k : Fin (g + 1)) : Fin (g + 1) := if g = 1 then Fin.rev k else k

theorem oppo_on (k i : Fin (g + 1)) : onFacet g (oppo k).1 i.1 ↔ i ≠ k := by
  unfold onFacet oppo
  by_cases hg : g = 1
  · subst hg
    simp only [if_true]
    revert i k; decide
  · simp only [if_neg hg, ne_eq, Fin.ext_iff]

theorem oppo_oppo (k : Fin (g + 1)) : oppo (oppo k) = k := by
  unfold oppo
  split
  · exact Fin.rev_rev k
  · rfl

theorem dual_of (hD : Triangulation hg D) {c : DSimplex K} (hc : c ∈ D.cells) :
    Dual (corner D c) (fun k => cutNormal hg (c.normal (oppo k))) :=
  ⟨fun k i j hi hj => hD.perp c hc (oppo k) i j ((oppo_on k i).2 hi) ((oppo_on k j).2 hj),
   fun k i hi => hD.outward c hc (oppo k) i k ((oppo_on k i).2 hi) (fun h => (oppo_on k k).1 h rfl)⟩

theorem corner_get (hD : Triangulation hg D) {c : DSimplex K} (hc : c ∈ D.cells) {row : List Int} {i : Nat} {v : Vec K g}
    (h : (made hg D c row).verts[i]? = some v) : ∃ hi : i < g + 1, v = corner D c ⟨i, hi⟩ := by
  have hl := hD.corners c hc
  simp only [made, List.getElem?_map, Option.map_eq_some_iff] at h
  obtain ⟨a, ha, rfl⟩ := h
  have hi : i < c.verts.length := (List.getElem?_eq_some_iff.1 ha).1
  exact ⟨by omega, by unfold corner; rw [ha]; rfl⟩

theorem normal_get {c : DSimplex K} {row : List Int} {k : Nat} {m : Vec K g}
    (h : (made hg D c row).normals[k]? = some m) : k < g + 1 ∧ m = cutNormal hg (c.normal k) := by
  simp only [made, List.getElem?_map, Option.map_eq_some_iff] at h
  obtain ⟨a, ha, rfl⟩ := h
  obtain ⟨h1, h2⟩ := List.getElem?_eq_some_iff.1 ha
  rw [List.length_range] at h1
  rw [List.getElem_range] at h2
  exact ⟨h1, by rw [h2]⟩

theorem made_regular (hD : Triangulation hg D) {c : DSimplex K} (hc : c ∈ D.cells) {row : List Int}
    (hrow : row.length = c.facets.length) : (made hg D c row).Regular := by
  have hf : c.facets.length = g + 1 := hD.manifold.facets (c.index, c.facets) (List.mem_map.2 ⟨c, hc, rfl⟩)
  refine ⟨⟨hD.dim, hg⟩, ?_, ?_, hf, hrow.trans hf, ?_, ?_⟩
  · simp only [made, List.length_map]; exact hD.corners c hc
  · simp [made]
  · intro k i j n vi vj hn hi hj oi oj
    obtain ⟨hk, rfl⟩ := normal_get hn
    obtain ⟨hi', rfl⟩ := corner_get hD hc hi
    obtain ⟨hj', rfl⟩ := corner_get hD hc hj
    exact hD.perp c hc ⟨k, hk⟩ ⟨i, hi'⟩ ⟨j, hj'⟩ oi oj
  · intro k i j n vi vj hn hi hj oi oj
    obtain ⟨hk, rfl⟩ := normal_get hn
    obtain ⟨hi', rfl⟩ := corner_get hD hc hi
    obtain ⟨hj', rfl⟩ := corner_get hD hc hj
    exact hD.outward c hc ⟨k, hk⟩ ⟨i, hi'⟩ ⟨j, hj'⟩ oi oj

theorem made_has (hD : Triangulation hg D) {c : DSimplex K} (hc : c ∈ D.cells) {row : List Int}
    (hrow : row.length = c.facets.length) (q : Vec K g) : (made hg D c row).Has q ↔ InHull (corner D c) q := by
  have hr := made_regular hD hc hrow
  rw [hr.has_iff_hull]
  have : (made hg D c row).vert hr.verts = corner D c := by
    funext i
    obtain ⟨_, h⟩ := corner_get hD hc (row := row) (i := i.1) (List.getElem?_eq_getElem (by rw [hr.verts]; exact i.2))
    exact h
  rw [this]

/-- C88.  A mesh made of any triangulation is conforming as the theorems on tracking require, if the
boundary facets are marked: the dictionaries can be made, the cells of the mesh are the simplices, and
the neighbour across a facet is the simplex on its other side. -/
theorem C88_conforming (hD : Triangulation hg D) (junk : Int)
    (hm : ∀ c ∈ D.cells, ∀ F ∈ c.facets, (∀ c' ∈ D.cells, F ∈ c'.facets → c'.index = c.index) → marker F ≠ 0) :
    ∃ M, buildMesh hg D junk marker = .ok M ∧ M.marker = marker ∧ M.Conforming := by
  obtain ⟨M, e, hmk, hinv, hex⟩ := build_ok hD.manifold junk marker
  refine ⟨M, e, hmk, ?_⟩
  have hfl : ∀ c ∈ D.cells, c.facets.length = g + 1 := fun c hc =>
    hD.manifold.facets (c.index, c.facets) (List.mem_map.2 ⟨c, hc, rfl⟩)
  refine ⟨?_, ?_, ?_, ?_, ?_⟩
  · intro ci C hC
    obtain ⟨c, hc, -, row, hrow, rfl⟩ := hinv ci C hC
    exact made_regular hD hc hrow.length_eq.symm
  · intro ci C hC
    obtain ⟨c, hc, -, row, hrow, rfl⟩ := hinv ci C hC
    exact hD.manifold.distinct (c.index, c.facets) (List.mem_map.2 ⟨c, hc, rfl⟩)
  · intro ci C F hC hF
    obtain ⟨c, hc, -, row, hrow, rfl⟩ := hinv ci C hC
    exact hD.facetNo c hc F hF
  · intro ci C k cj hC hk hne
    obtain ⟨c, hc, rfl, row, hrow, rfl⟩ := hinv ci C hC
    have hk' : row[k]? = some cj := hk
    have hkl : k < c.facets.length := by
      rw [hrow.length_eq]; exact (List.getElem?_eq_some_iff.1 hk').1
    have hF : c.facets[k]? = some c.facets[k] := List.getElem?_eq_getElem hkl
    have hnb : IsNeighbor D.topo c.index c.facets[k] cj := by
      have := hrow.get hkl (by rw [← hrow.length_eq]; exact hkl)
      have e2 : row[k]'(by rw [← hrow.length_eq]; exact hkl) = cj := (List.getElem?_eq_some_iff.1 hk').2
      simp only [List.get_eq_getElem] at this
      rw [e2] at this
      exact this
    rcases hnb with ⟨h1, -⟩ | ⟨h1, fs, hfs, hmem⟩
    · exact absurd h1 hne
    obtain ⟨c', hc', he⟩ := List.mem_map.1 hfs
    simp only [Prod.mk.injEq] at he
    obtain ⟨rfl, rfl⟩ := he
    obtain ⟨row', hC'⟩ := hex c' hc'
    obtain ⟨k', hk'l, hk'e⟩ := List.getElem_of_mem hmem
    have hF' : c'.facets[k']? = some c.facets[k] := by rw [List.getElem?_eq_getElem hk'l, hk'e]
    have hl := hfl c hc
    have hl' := hfl c' hc'
    have kg : k < g + 1 := by omega
    have kg' : k' < g + 1 := by omega
    have hrl' : row'.length = c'.facets.length := by
      obtain ⟨c'', -, -, row'', h2, h3⟩ := hinv _ _ hC'
      have e1 : row' = row'' := congrArg Cell.neighbors h3
      have e2 : c'.facets = c''.facets := congrArg Cell.facets h3
      rw [e1, e2]
      exact h2.length_eq.symm
    have d1 := dual_of hD hc
    have d2 := dual_of hD hc'
    -- the vertices of the facet
    have hv : ∀ (c₁ : DSimplex K), c₁ ∈ D.cells → ∀ c₂ ∈ D.cells, ∀ k₁ k₂ : Fin (g + 1),
        c₁.facets[k₁.1]? = some c.facets[k] → c₂.facets[k₂.1]? = some c.facets[k] →
        ∀ i, i ≠ oppo k₁ → ∃ j, j ≠ oppo k₂ ∧ corner D c₂ j = corner D c₁ i := by
      intro c₁ h₁ c₂ h₂ k₁ k₂ f₁ f₂ i hi
      have hi' := (oppo_on (oppo k₁) i).2 hi
      rw [oppo_oppo] at hi'
      have hil : i.1 < c₁.verts.length := by rw [hD.corners c₁ h₁]; exact i.2
      obtain ⟨j, oj, vj⟩ := (hD.same c₁ h₁ c₂ h₂ k₁ k₂ _ f₁ f₂ c₁.verts[i.1]).1
        ⟨i.1, hi', List.getElem?_eq_getElem hil⟩
      have hjl : j < g + 1 := by
        have := (List.getElem?_eq_some_iff.1 vj).1
        rw [hD.corners c₂ h₂] at this
        exact this
      refine ⟨⟨j, hjl⟩, ?_, ?_⟩
      · rw [← oppo_on, oppo_oppo]; exact oj
      · unfold corner
        rw [vj, List.getElem?_eq_getElem hil]
    refine ⟨_, k', hC', ?_, ?_, ?_⟩
    · show c'.facets[k']? = c.facets[k]?
      rw [hF, hF']
    · intro n n' hn hn'
      obtain ⟨-, rfl⟩ := normal_get hn
      obtain ⟨-, rfl⟩ := normal_get hn'
      obtain ⟨a, ha, hp⟩ := d1.opposite hD.dim d2 (k := oppo ⟨k, kg⟩) (k' := oppo ⟨k', kg'⟩)
        (hv c hc c' hc' ⟨k, kg⟩ ⟨k', kg'⟩ hF hF') (hv c' hc' c hc ⟨k', kg'⟩ ⟨k, kg⟩ hF' hF)
        (hD.disjoint c hc c' hc' (fun h => h1 h.symm))
      simp only [oppo_oppo] at hp
      exact ⟨a, ha, hp⟩
    · intro q hq hp
      rw [made_has hD hc hrow.length_eq.symm] at hq
      rw [made_has hD hc' hrl']
      refine d1.shared hD.dim d2 (k := oppo ⟨k, kg⟩) (k' := oppo ⟨k', kg'⟩)
        (hv c hc c' hc' ⟨k, kg⟩ ⟨k', kg'⟩ hF hF') hq fun i hi => ?_
      have hi' := (oppo_on (oppo ⟨k, kg⟩) i).2 hi
      rw [oppo_oppo] at hi'
      simp only [oppo_oppo]
      refine hp _ _ i.1 ?_ ?_ hi'
      · simp only [made, List.getElem?_map]
        rw [List.getElem?_eq_getElem (by rw [List.length_range]; exact kg), List.getElem_range]
        rfl
      · have hil : i.1 < c.verts.length := by rw [hD.corners c hc]; exact i.2
        simp only [made, List.getElem?_map]
        unfold corner
        rw [List.getElem?_eq_getElem hil]
        rfl
  · intro ci C k F hC hk hF
    obtain ⟨c, hc, rfl, row, hrow, rfl⟩ := hinv ci C hC
    have hk' : row[k]? = some (-1) := hk
    have hF' : c.facets[k]? = some F := hF
    obtain ⟨hkl, hFe⟩ := List.getElem?_eq_some_iff.1 hF'
    rw [hmk]
    refine hm c hc F (List.mem_of_getElem? hF') ?_
    have hnb : IsNeighbor D.topo c.index F (-1) := by
      have := hrow.get hkl (by rw [← hrow.length_eq]; exact hkl)
      simp only [List.get_eq_getElem] at this
      rw [(List.getElem?_eq_some_iff.1 hk').2, hFe] at this
      exact this
    rcases hnb with ⟨-, h2⟩ | ⟨-, fs, hfs, -⟩
    · intro c' hc' hm'
      exact h2 c'.index ⟨c'.facets, List.mem_map.2 ⟨c', hc', rfl⟩, hm'⟩
    · exact absurd (hD.manifold.nonneg _ hfs) (by simp)

/-- C88 (points).  The points of the mesh are those of the simplices, and its cells have the numbers of
the simplices. -/
theorem C88_points (hD : Triangulation hg D) (junk : Int) (marker : Int → Int) :
    ∃ M, buildMesh hg D junk marker = .ok M ∧
      (∀ q, M.Points q ↔ ∃ c ∈ D.cells, InHull (corner D c) q) ∧
      (∀ q ci, M.isInside q ci = .ok true ↔ ∃ c ∈ D.cells, c.index = ci ∧ InHull (corner D c) q) ∧
      ∀ ci, (∃ C, M.cell ci = some C) ↔ ∃ c ∈ D.cells, c.index = ci := by
  obtain ⟨M, e, -, hinv, hex⟩ := build_ok hD.manifold junk marker
  have hmem : ∀ q ci, (∃ C, M.cell ci = some C ∧ C.Has q) ↔ ∃ c ∈ D.cells, c.index = ci ∧ InHull (corner D c) q := by
    intro q ci
    constructor
    · rintro ⟨C, hC, hq⟩
      obtain ⟨c, hc, he, row, hrow, rfl⟩ := hinv ci C hC
      exact ⟨c, hc, he, (made_has hD hc hrow.length_eq.symm q).1 hq⟩
    · rintro ⟨c, hc, rfl, hq⟩
      obtain ⟨row, hC⟩ := hex c hc
      obtain ⟨c', hc', he, row', hrow, h3⟩ := hinv _ _ hC
      refine ⟨_, hC, ?_⟩
      have e1 : row = row' := congrArg Cell.neighbors h3
      have e2 : c.facets = c'.facets := congrArg Cell.facets h3
      rw [made_has hD hc (by rw [e1, e2]; exact hrow.length_eq.symm)]
      exact hq
  refine ⟨M, e, ?_, ?_, ?_⟩
  · intro q
    constructor
    · rintro ⟨ci, C, h⟩
      obtain ⟨c, hc, -, h2⟩ := (hmem q ci).1 ⟨C, h⟩
      exact ⟨c, hc, h2⟩
    · rintro ⟨c, hc, h2⟩
      obtain ⟨C, h⟩ := (hmem q c.index).2 ⟨c, hc, rfl, h2⟩
      exact ⟨c.index, C, h⟩
  · intro q ci
    rw [inside_iff_has (fun ci C hC => by
      obtain ⟨c, hc, -, row, hrow, rfl⟩ := hinv ci C hC
      exact made_regular hD hc hrow.length_eq.symm), hmem]
  · intro ci
    constructor
    · rintro ⟨C, hC⟩
      obtain ⟨c, hc, he, -⟩ := hinv ci C hC
      exact ⟨c, hc, he⟩
    · rintro ⟨c, hc, rfl⟩
      obtain ⟨row, hC⟩ := hex c hc
      exact ⟨_, hC⟩

/-- C88 (moving).  In any triangulation whose boundary is marked, with callbacks that delete or turn back
at the boundary: a particle in the simplex with the number in its record is moved to a simplex with the
number then in its record, or deleted, or too many facets are crossed.  No other error is possible. -/
theorem C88_mover (hD : Triangulation hg D) (junk : Int)
    (hm : ∀ c ∈ D.cells, ∀ F ∈ c.facets, (∀ c' ∈ D.cells, F ∈ c'.facets → c'.index = c.index) → marker F ≠ 0)
    (h : g ≤ p) :
    ∃ M, buildMesh hg D junk marker = .ok M ∧ ∀ {v : Variant}, v.datum = .ok () →
      ∀ {bc : Int → τ → BCall K g p ρ → Except Err (τ × Part K p ρ)}, GoodBC h M (v.sharesDx = true) bc → KeepsCell bc →
      ∀ (n : Nat) (time dt qmdt : K) (accel : Bool) (E : Part K p ρ → Option (Vec K p)) (st : τ × Vec K p)
        (q : Part K p ρ), (∃ c ∈ D.cells, c.index = q.cell ∧ InHull (corner D c) (proj h q.x)) →
      (∃ st' q' evs, moveCharged h M v bc n time dt qmdt accel E st q = .ok (st', q', evs) ∧
        ((∃ c ∈ D.cells, c.index = q'.cell ∧ InHull (corner D c) (proj h q'.x)) ∨ (q'.del = true ∧ q'.cell = -1))) ∨
      moveCharged h M v bc n time dt qmdt accel E st q = .error (v.err .tooMany) := by
  obtain ⟨M, e, -, hM⟩ := C88_conforming hD junk hm
  obtain ⟨M', e', -, hin, -⟩ := C88_points hD junk marker
  rw [e] at e'
  cases e'
  refine ⟨M, e, fun {v} hv {bc} hbc hk n time dt qmdt accel E st q hq => ?_⟩
  rcases C28_no_error hM hv hbc n time dt qmdt accel E st (q := q) ((hin _ _).2 hq) with ⟨⟨st', q', evs⟩, hr⟩ | ⟨hr, -⟩
  · refine .inl ⟨st', q', evs, hr, ?_⟩
    rcases C25_cell_label hk (.inl hr) with h1 | h1
    · exact .inl ((hin _ _).1 h1)
    · exact .inr h1
  · exact .inr hr

open Locate in
/-- C88 (finding cells).  In any triangulation with fewer than 2^31 cells, `compute_mesh_cell_indices`
labels every particle with a simplex that contains it, or ends with a KeyError if a particle is in none. -/
theorem C88_located (hD : Triangulation hg D) (junk : Int) (marker : Int → Int) (h : g ≤ p)
    (hsmall : ∀ c ∈ D.cells, c.index < 2147483648) :
    ∃ M, buildMesh hg D junk marker = .ok M ∧ ∀ {first : Vec K g → Int}, Finds M first →
      ∀ (ss : List (SAP (Part K p ρ))) (pops : List (List (Part K p ρ))),
      List.Forall₂ (fun s xs => SAP.Reachable s ∧ Stores s xs) ss pops →
      ((∀ xs ∈ pops, ∀ q ∈ xs, ∃ c ∈ D.cells, InHull (corner D c) (proj h q.x)) →
        ∃ ss' pops', locateAll h M first ss = .ok ss' ∧
          List.Forall₂ (fun s xs => SAP.Reachable s ∧ Stores s xs) ss' pops' ∧
          List.Forall₂ (Relabelled (fun q c => { q with cell := c })
            (fun q => ∃ c ∈ D.cells, c.index = q.cell ∧ InHull (corner D c) (proj h q.x))) pops pops') ∧
      (¬ (∀ xs ∈ pops, ∀ q ∈ xs, ∃ c ∈ D.cells, InHull (corner D c) (proj h q.x)) →
        locateAll h M first ss = .error .key) := by
  obtain ⟨M, e, -, hinv, -⟩ := build_ok hD.manifold junk marker
  obtain ⟨M', e', hpt, hin, hix⟩ := C88_points hD junk marker
  rw [e] at e'
  cases e'
  refine ⟨M, e, fun {first} hf ss pops hs => ?_⟩
  have hn : M.Numbered := by
    intro ci C hC
    obtain ⟨c, hc, rfl⟩ := (hix ci).1 ⟨C, hC⟩
    exact ⟨hD.manifold.nonneg (c.index, c.facets) (List.mem_map.2 ⟨c, hc, rfl⟩), hsmall c hc⟩
  have hreg : ∀ ci C, M.cell ci = some C → C.Regular := by
    intro ci C hC
    obtain ⟨c, hc, -, row, hrow, rfl⟩ := hinv ci C hC
    exact made_regular hD hc hrow.length_eq.symm
  have key := C87_particles hreg h hn hf ss pops hs
  simp only [hpt] at key
  refine ⟨fun hall => ?_, key.2⟩
  obtain ⟨ss', pops', h1, h2, h3⟩ := key.1 hall
  refine ⟨ss', pops', h1, h2, h3.imp fun xs ys hr => ?_⟩
  induction hr with
  | nil => exact .nil
  | cons c ok _ ih => exact .cons c ((hin _ _).1 ok) ih

end

/-! ### A concrete case: two tetrahedra with a common facet -/

def tetA : DSimplex ℚ where
  index := 0
  verts := [0, 1, 2, 3]
  facets := [0, 1, 2, 3]
  normal k := if k = 0 then ![1, 1, 1] else if k = 1 then ![-1, 0, 0] else if k = 2 then ![0, -1, 0] else ![0, 0, -1]

def tetB : DSimplex ℚ where
  index := 1
  verts := [1, 2, 3, 4]
  facets := [4, 5, 6, 0]
  normal k := if k = 0 then ![-1, 1, 1] else if k = 1 then ![1, -1, 1] else if k = 2 then ![1, 1, -1] else ![-1, -1, -1]

def twoTets : DMesh ℚ 3 where
  cells := [tetA, tetB]
  coord v := if v = 0 then ![0, 0, 0] else if v = 1 then ![1, 0, 0] else if v = 2 then ![0, 1, 0]
    else if v = 3 then ![0, 0, 1] else ![1, 1, 1]
  attached F := if F = 0 then [0, 1] else if F = 1 ∨ F = 2 ∨ F = 3 then [0]
    else if F = 4 ∨ F = 5 ∨ F = 6 then [1] else []

theorem twoTets_triangulation : Triangulation (le_refl 3) twoTets := by
  refine ⟨by decide, ⟨by decide, by decide, by decide, by decide, ?_, ?_, ?_⟩, by decide, by decide, ?_, ?_, ?_, ?_⟩
  · intro c f
    constructor
    · intro h
      simp only [twoTets, DMesh.topo] at h
      split at h
      · rename_i hf
        subst hf
        simp only [List.mem_cons, List.not_mem_nil, or_false] at h
        rcases h with rfl | rfl
        · exact ⟨[0, 1, 2, 3], by decide, by decide⟩
        · exact ⟨[4, 5, 6, 0], by decide, by decide⟩
      · split at h
        · rename_i hf
          simp only [List.mem_cons, List.not_mem_nil, or_false] at h
          subst h
          exact ⟨[0, 1, 2, 3], by decide, by rcases hf with rfl | rfl | rfl <;> decide⟩
        · split at h
          · rename_i hf
            simp only [List.mem_cons, List.not_mem_nil, or_false] at h
            subst h
            exact ⟨[4, 5, 6, 0], by decide, by rcases hf with rfl | rfl | rfl <;> decide⟩
          · cases h
    · rintro ⟨fs, h1, h2⟩
      simp only [twoTets, DMesh.topo, facetDict, List.map_cons, List.map_nil, tetA, tetB, List.mem_cons,
        List.not_mem_nil, or_false, Prod.mk.injEq] at h1
      rcases h1 with ⟨rfl, rfl⟩ | ⟨rfl, rfl⟩
      · simp only [List.mem_cons, List.not_mem_nil, or_false] at h2
        rcases h2 with rfl | rfl | rfl | rfl <;> decide
      · simp only [List.mem_cons, List.not_mem_nil, or_false] at h2
        rcases h2 with rfl | rfl | rfl | rfl <;> decide
  · intro f
    simp only [twoTets, DMesh.topo]
    split
    · decide
    · split
      · decide
      · split <;> decide
  · intro f
    simp only [twoTets, DMesh.topo]
    split
    · decide
    · split
      · decide
      · split <;> decide
  · have hon : ∀ (c : DSimplex ℚ) (k v : Nat), OfFacet 3 c k v ↔ ∃ j, j ≠ k ∧ c.verts[j]? = some v := by
      intro c k v; unfold OfFacet onFacet; simp
    intro c hc c' hc' k k' F hk hk' v
    simp only [twoTets, List.mem_cons, List.not_mem_nil, or_false] at hc hc'
    have hl : k < 4 := by
      have := (List.getElem?_eq_some_iff.1 hk).1
      rcases hc with rfl | rfl <;> exact this
    have hl' : k' < 4 := by
      have := (List.getElem?_eq_some_iff.1 hk').1
      rcases hc' with rfl | rfl <;> exact this
    have ab : OfFacet 3 tetA 0 v ↔ OfFacet 3 tetB 3 v := by
      rw [hon, hon]
      constructor
      · rintro ⟨j, hj, hv⟩
        obtain _ | j := j
        · exact absurd rfl hj
        · have : j < 3 := by have := (List.getElem?_eq_some_iff.1 hv).1; simp [tetA] at this; omega
          exact ⟨j, by omega, by interval_cases j <;> exact hv⟩
      · rintro ⟨j, hj, hv⟩
        have : j < 3 := by have := (List.getElem?_eq_some_iff.1 hv).1; simp [tetB] at this; omega
        exact ⟨j + 1, by omega, by interval_cases j <;> exact hv⟩
    rcases hc with rfl | rfl <;> rcases hc' with rfl | rfl <;> interval_cases k <;> interval_cases k' <;>
      first
      | exact Iff.rfl
      | exact ab
      | exact ab.symm
      | (exfalso; rw [← hk'] at hk; revert hk; decide)
  · unfold onFacet; decide +kernel
  · unfold onFacet; decide +kernel
  · have key : ∀ (w : Fin 4 → ℚ) (q : Vec ℚ 3), (∀ i, 0 < w i) → ∑ i, w i = 1 →
        ((∀ c, q c = ∑ i, w i * corner twoTets tetA i c) → q 0 + q 1 + q 2 < 1) ∧
        ((∀ c, q c = ∑ i, w i * corner twoTets tetB i c) → 1 < q 0 + q 1 + q 2) := by
      intro w q hw hs
      rw [Fin.sum_univ_four] at hs
      have h0 := hw 0
      have h3 := hw 3
      constructor
      · intro hq
        rw [hq 0, hq 1, hq 2]
        simp [Fin.sum_univ_four, corner, twoTets, tetA]
        linarith
      · intro hq
        rw [hq 0, hq 1, hq 2]
        simp [Fin.sum_univ_four, corner, twoTets, tetB]
        linarith
    intro c hc c' hc' hne q hq
    obtain ⟨⟨w, w1, w2, w3⟩, ⟨u, u1, u2, u3⟩⟩ := hq
    simp only [twoTets, List.mem_cons, List.not_mem_nil, or_false] at hc hc'
    rcases hc with rfl | rfl <;> rcases hc' with rfl | rfl
    · exact hne rfl
    · have h1 := (key w q w1 w2).1 w3
      have h2 := (key u q u1 u2).2 u3
      linarith
    · have h1 := (key w q w1 w2).2 w3
      have h2 := (key u q u1 u2).1 u3
      linarith
    · exact hne rfl

-- With the facets 1 to 6 marked the mesh is conforming.
example : ∃ M, buildMesh (le_refl 3) twoTets 0 (fun F => F) = .ok M ∧ M.marker = (fun F => F) ∧ M.Conforming := by
  refine C88_conforming twoTets_triangulation 0 ?_
  intro c hc F hF hone h0
  subst h0
  have h1 := hone tetA (by simp [twoTets]) (by decide)
  have h2 := hone tetB (by simp [twoTets]) (by decide)
  rw [← h1] at h2
  exact absurd h2 (by decide)
-- Their neighbours.
example : (buildMesh (le_refl 3) twoTets 7 (fun F => F)).map (fun M => [0, 1, 2].map (fun ci => (M.cell ci).map (·.neighbors))) =
    .ok [some [1, -1, -1, -1], some [-1, -1, -1, 0], none] := by decide +kernel

end Dt
