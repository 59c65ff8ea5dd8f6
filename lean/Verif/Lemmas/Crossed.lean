import Verif.Model.Crossed
import Verif.Lemmas.PolarGrid

/-!
# Meshes with crossed diagonals
-/

set_option linter.unusedSectionVars false

namespace Dt
namespace Crossed
open Dt.Topology Spec Rect Sector
variable {K : Type} [Field K] [LinearOrder K] [IsStrictOrderedRing K]
variable {sq : K → K} {x y : Nat → K} {nx ny i j i' j' : Nat} {t t' : Tri}

theorem mem_simplices {c : DSimplex K} :
    c ∈ simplices sq x y nx ny ↔ ∃ i j t, i < nx ∧ j < ny ∧ c = simplex sq x y nx ny i j t := by
  unfold simplices
  simp only [List.mem_flatMap, List.mem_range, List.mem_map]
  constructor
  · rintro ⟨m, hm, t, -, rfl⟩
    have hnx : 0 < nx := by
      rcases Nat.eq_zero_or_pos nx with h | h
      · subst h; simp at hm
      · exact h
    exact ⟨m % nx, m / nx, t, Nat.mod_lt _ hnx, Nat.div_lt_of_lt_mul hm, rfl⟩
  · rintro ⟨i, j, t, hi, hj, rfl⟩
    refine ⟨j * nx + i, ?_, t, by cases t <;> simp, ?_⟩
    · have : (j + 1) * nx ≤ ny * nx := Nat.mul_le_mul_right _ hj
      have : (j + 1) * nx = j * nx + nx := by ring
      rw [Nat.mul_comm nx ny]
      omega
    · have h1 : (j * nx + i) % nx = i := by rw [Nat.mul_comm, Nat.mul_add_mod]; exact Nat.mod_eq_of_lt hi
      have h2 : (j * nx + i) / nx = j := by
        rw [Nat.mul_comm, Nat.mul_add_div (by omega), Nat.div_eq_of_lt hi, Nat.add_zero]
      rw [h1, h2]

theorem triNo_inj (hi : i < nx) (hi' : i' < nx) (h : triNo nx i j t = triNo nx i' j' t') : i = i' ∧ j = j' ∧ t = t' := by
  unfold triNo at h
  have ht : t.no < 4 := by cases t <;> decide
  have ht' : t'.no < 4 := by cases t' <;> decide
  have h1 : j * nx + i = j' * nx + i' := by omega
  have h2 : t.no = t'.no := by omega
  have m1 : (j * nx + i) % nx = i := by rw [Nat.mul_comm, Nat.mul_add_mod]; exact Nat.mod_eq_of_lt hi
  have m2 : (j' * nx + i') % nx = i' := by rw [Nat.mul_comm, Nat.mul_add_mod]; exact Nat.mod_eq_of_lt hi'
  have hii : i = i' := by rw [← m1, ← m2, h1]
  subst hii
  have : j * nx = j' * nx := by omega
  refine ⟨rfl, Nat.eq_of_mul_eq_mul_right (by omega) this, ?_⟩
  cases t <;> cases t' <;> first | rfl | (simp [Tri.no] at h2)

theorem vertNo_inj {a b a' b' : Nat} (ha : a ≤ nx) (ha' : a' ≤ nx) (h : vertNo nx a b = vertNo nx a' b') : a = a' ∧ b = b' := by
  unfold vertNo at h
  exact rowcol h ha ha'

theorem label_bound {l : Nat × Nat × Nat} (hi : i < nx) (h : l ∈ labels i j t) : l.1 ≤ nx ∧ l.2.2 < 6 := by
  cases t <;> simp only [labels, List.mem_cons, List.not_mem_nil, or_false] at h <;> rcases h with rfl | rfl | rfl <;> simp <;> omega

theorem facetNo_inj {l l' : Nat × Nat × Nat} (h1 : l.1 ≤ nx) (h2 : l.2.2 < 6) (h1' : l'.1 ≤ nx) (h2' : l'.2.2 < 6)
    (h : facetNo nx l = facetNo nx l') : l = l' := by
  obtain ⟨a, b, c⟩ := l
  obtain ⟨a', b', c'⟩ := l'
  simp only [facetNo] at *
  have e1 : vertNo nx a b = vertNo nx a' b' := by omega
  have e2 : c = c' := by omega
  obtain ⟨rfl, rfl⟩ := vertNo_inj h1 h1' e1
  rw [e2]

/-- The triangles that can have a facet. -/
def owners : Nat × Nat × Nat → (Nat × Nat × Tri) × (Nat × Nat × Tri)
  | (i, j, 0) => ((i, j, .bottom), (i, j - 1, .top))
  | (i, j, 1) => ((i, j, .left), (i - 1, j, .right))
  | (i, j, 2) => ((i, j, .bottom), (i, j, .left))
  | (i, j, 3) => ((i, j, .bottom), (i, j, .right))
  | (i, j, 4) => ((i, j, .left), (i, j, .top))
  | (i, j, _) => ((i, j, .right), (i, j, .top))

theorem owner_cases {l : Nat × Nat × Nat} (h : l ∈ labels i j t) : (i, j, t) = (owners l).1 ∨ (i, j, t) = (owners l).2 := by
  cases t <;> simp only [labels, List.mem_cons, List.not_mem_nil, or_false] at h <;> rcases h with rfl | rfl | rfl <;> simp [owners]

theorem simplices_nodup : ((simplices sq x y nx ny).map (·.index)).Nodup := by
  have h : (simplices sq x y nx ny).map (·.index) =
      (List.range (nx * ny)).flatMap (fun m : Nat => [4 * (m : Int), 4 * (m : Int) + 1, 4 * (m : Int) + 2, 4 * (m : Int) + 3]) := by
    unfold simplices
    rw [List.map_flatMap]
    congr 1
    funext m
    have : m / nx * nx + m % nx = m := by rw [Nat.mul_comm]; exact Nat.div_add_mod m nx
    simp [simplex, triNo, this, Tri.no]
  rw [h, List.nodup_flatMap]
  constructor
  · intro m _
    simp
  · refine List.Pairwise.imp ?_ (List.nodup_range (n := nx * ny))
    intro a b hab
    simp only [Function.onFun, List.disjoint_iff_ne, List.mem_cons, List.not_mem_nil, or_false]
    rintro u (rfl | rfl | rfl | rfl) w (rfl | rfl | rfl | rfl) <;> omega

theorem labels_nodup (i j : Nat) (t : Tri) : (labels i j t).Nodup := by
  cases t <;> simp [labels]

theorem manifold (sq : K → K) (x y : Nat → K) (nx ny : Nat) : Manifold (dmesh sq x y nx ny).topo (2 + 1) := by
  have hmem : ∀ c ∈ (dmesh sq x y nx ny).topo.cells, ∃ i j t, i < nx ∧ j < ny ∧
      c = (triNo nx i j t, (labels i j t).map (facetNo nx)) := by
    intro c hc
    obtain ⟨a, ha, rfl⟩ := List.mem_map.1 hc
    obtain ⟨i, j, t, hi, hj, rfl⟩ := mem_simplices.1 ha
    exact ⟨i, j, t, hi, hj, rfl⟩
  have hatt : ∀ c F, c ∈ (dmesh sq x y nx ny).topo.attached F ↔ HasFacet (dmesh sq x y nx ny).topo c F := by
    intro c F
    simp only [DMesh.topo, dmesh, List.mem_map, List.mem_filter, decide_eq_true_eq]
    constructor
    · rintro ⟨a, ⟨h1, h2⟩, rfl⟩
      exact ⟨a.facets, List.mem_map.2 ⟨a, h1, rfl⟩, h2⟩
    · rintro ⟨fs, hfs, hF⟩
      obtain ⟨a, ha, he⟩ := List.mem_map.1 hfs
      simp only [Prod.mk.injEq] at he
      obtain ⟨rfl, rfl⟩ := he
      exact ⟨a, ⟨ha, hF⟩, rfl⟩
  have honce : ∀ F, ((dmesh sq x y nx ny).topo.attached F).Nodup := by
    intro F
    have : ((dmesh sq x y nx ny).topo.attached F).Sublist ((simplices sq x y nx ny).map (·.index)) :=
      List.Sublist.map _ List.filter_sublist
    exact List.Nodup.sublist this simplices_nodup
  have hinv : ∀ c F, c ∈ (dmesh sq x y nx ny).topo.attached F → ∃ i j t l, i < nx ∧ j < ny ∧ c = triNo nx i j t ∧ l ∈ labels i j t ∧
      F = facetNo nx l := by
    intro c F h
    obtain ⟨fs, hfs, hF⟩ := (hatt c F).1 h
    obtain ⟨i, j, t, hi, hj, e⟩ := hmem _ hfs
    simp only [Prod.mk.injEq] at e
    obtain ⟨rfl, rfl⟩ := e
    obtain ⟨l, hl, rfl⟩ := List.mem_map.1 hF
    exact ⟨i, j, t, l, hi, hj, rfl, hl, rfl⟩
  refine ⟨?_, ?_, ?_, ?_, hatt, honce, ?_⟩
  · rw [topo_keys]; exact simplices_nodup
  · intro c hc
    obtain ⟨i, j, t, -, -, rfl⟩ := hmem c hc
    show 0 ≤ triNo nx i j t
    unfold triNo; omega
  · intro c hc
    obtain ⟨i, j, t, -, -, rfl⟩ := hmem c hc
    cases t <;> rfl
  · intro c hc
    obtain ⟨i, j, t, hi, -, rfl⟩ := hmem c hc
    refine List.Nodup.map_on ?_ (labels_nodup i j t)
    intro l hl l' hl' h
    obtain ⟨a1, a2⟩ := label_bound hi hl
    obtain ⟨b1, b2⟩ := label_bound hi hl'
    exact facetNo_inj a1 a2 b1 b2 h
  · intro F
    cases hl : (dmesh sq x y nx ny).topo.attached F with
    | nil => simp
    | cons c rest =>
      obtain ⟨i, j, t, l, hi, hj, -, hlab, rfl⟩ := hinv c F (by rw [hl]; exact List.mem_cons_self ..)
      obtain ⟨a1, a2⟩ := label_bound hi hlab
      have hsub : (dmesh sq x y nx ny).topo.attached (facetNo nx l) ⊆
          [triNo nx (owners l).1.1 (owners l).1.2.1 (owners l).1.2.2, triNo nx (owners l).2.1 (owners l).2.2.1 (owners l).2.2.2] := by
        intro c' hc'
        obtain ⟨i', j', t', l', hi', hj', rfl, hlab', hF⟩ := hinv c' _ hc'
        obtain ⟨b1, b2⟩ := label_bound hi' hlab'
        obtain rfl := facetNo_inj a1 a2 b1 b2 hF
        rcases owner_cases hlab' with h | h <;> rw [← h] <;> simp
      have := (List.subperm_of_subset (honce (facetNo nx l)) hsub).length_le
      rw [hl] at this
      simpa using this

/-- The vertices of a facet. -/
def labelEnds (nx ny : Nat) : Nat × Nat × Nat → Nat × Nat
  | (i, j, 0) => (vertNo nx i j, vertNo nx (i + 1) j)
  | (i, j, 1) => (vertNo nx i j, vertNo nx i (j + 1))
  | (i, j, q + 2) => (cornerNo nx i j q, midNo nx ny i j)

theorem ofFacet_label {k : Nat} {l : Nat × Nat × Nat} (hl : (labels i j t)[k]? = some l) {c : DSimplex K}
    (hv : c.verts = (simplex sq x y nx ny i j t).verts) (v : Nat) :
    OfFacet 2 c k v ↔ v = (labelEnds nx ny l).1 ∨ v = (labelEnds nx ny l).2 := by
  have hk : k < 3 := by
    have := (List.getElem?_eq_some_iff.1 hl).1
    have e : (labels i j t).length = 3 := by cases t <;> rfl
    omega
  rw [ofFacet3 hv]
  cases t <;> interval_cases k <;> cases hl <;> simp [labelEnds, cornerNo, Tri.ends, eq_comm]

theorem dmesh_frame (sq : K → K) (x y : Nat → K) (nx ny : Nat) : Frame (dmesh sq x y nx ny) := by
  refine ⟨manifold sq x y nx ny, ?_, ?_, ?_⟩
  · intro c hc F hF
    obtain ⟨i, j, t, -, -, rfl⟩ := mem_simplices.1 hc
    obtain ⟨l, -, rfl⟩ := List.mem_map.1 hF
    unfold facetNo
    omega
  · intro c hc
    obtain ⟨i, j, t, -, -, rfl⟩ := mem_simplices.1 hc
    rfl
  · intro c hc c' hc' k k' F hk hk' v
    obtain ⟨i, j, t, hi, hj, rfl⟩ := mem_simplices.1 hc
    obtain ⟨i', j', t', hi', hj', rfl⟩ := mem_simplices.1 hc'
    simp only [simplex, List.getElem?_map, Option.map_eq_some_iff] at hk hk'
    obtain ⟨l, hl, rfl⟩ := hk
    obtain ⟨l', hl', h⟩ := hk'
    obtain ⟨a1, a2⟩ := label_bound hi (List.mem_of_getElem? hl)
    obtain ⟨b1, b2⟩ := label_bound hi' (List.mem_of_getElem? hl')
    obtain rfl := facetNo_inj b1 b2 a1 a2 h
    rw [ofFacet_label hl rfl, ofFacet_label hl' rfl]

end Crossed
end Dt
