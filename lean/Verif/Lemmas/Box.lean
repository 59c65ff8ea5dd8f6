import Verif.Model.Box
import Verif.Spec.MeshBuild
import Verif.Props.MeshBuild
import Mathlib.Tactic.Linarith
import Mathlib.Tactic.Ring
import Mathlib.Tactic.IntervalCases
import Mathlib.Tactic.FinCases
import Mathlib.Tactic.LinearCombination
import Mathlib.Algebra.BigOperators.Fin

/-!
# The mesh on a box: numbers of cells, facets and vertices
-/

set_option linter.unusedSectionVars false

namespace Dt
namespace Box
open Dt.Topology Spec
variable {K : Type} [Field K] [LinearOrder K] [IsStrictOrderedRing K]
variable {sq : K → K} {x y z : Nat → K} {nx ny nz i j k i' j' k' : Nat} {t t' : Tet}

/-! ### Positions -/

theorem pos_mod (hi : i < nx) : ((k * ny + j) * nx + i) % nx = i := by
  rw [Nat.mul_comm, Nat.mul_add_mod]; exact Nat.mod_eq_of_lt hi

theorem pos_div (hi : i < nx) : ((k * ny + j) * nx + i) / nx = k * ny + j := by
  rw [Nat.mul_comm _ nx, Nat.mul_add_div (by omega), Nat.div_eq_of_lt hi, Nat.add_zero]

theorem pos_mod2 (hi : i < nx) (hj : j < ny) : ((k * ny + j) * nx + i) / nx % ny = j := by
  rw [pos_div hi, Nat.mul_comm, Nat.mul_add_mod]; exact Nat.mod_eq_of_lt hj

theorem pos_div2 (hi : i < nx) (hj : j < ny) : ((k * ny + j) * nx + i) / nx / ny = k := by
  rw [pos_div hi, Nat.mul_comm, Nat.mul_add_div (by omega), Nat.div_eq_of_lt hj, Nat.add_zero]

theorem pos_inj (hi : i < nx) (hj : j < ny) (hi' : i' < nx) (hj' : j' < ny)
    (h : (k * ny + j) * nx + i = (k' * ny + j') * nx + i') : i = i' ∧ j = j' ∧ k = k' := by
  refine ⟨?_, ?_, ?_⟩
  · rw [← pos_mod (k := k) (ny := ny) (j := j) hi, h, pos_mod hi']
  · rw [← pos_mod2 (k := k) hi hj, h, pos_mod2 hi' hj']
  · rw [← pos_div2 (k := k) hi hj, h, pos_div2 hi' hj']

theorem pos_lt (hi : i < nx) (hj : j < ny) (hk : k < nz) : (k * ny + j) * nx + i < nx * ny * nz := by
  have h1 : k * ny + j + 1 ≤ nz * ny := by
    have : (k + 1) * ny ≤ nz * ny := Nat.mul_le_mul_right _ hk
    have : (k + 1) * ny = k * ny + ny := by ring
    omega
  have h2 : (k * ny + j + 1) * nx ≤ nz * ny * nx := Nat.mul_le_mul_right _ h1
  have h3 : (k * ny + j + 1) * nx = (k * ny + j) * nx + nx := by ring
  have h4 : nx * ny * nz = nz * ny * nx := by ring
  omega

theorem vertNo_inj (hi : i ≤ nx) (hj : j ≤ ny) (hi' : i' ≤ nx) (hj' : j' ≤ ny)
    (h : vertNo nx ny i j k = vertNo nx ny i' j' k') : i = i' ∧ j = j' ∧ k = k' :=
  pos_inj (by omega) (by omega) (by omega) (by omega) h

theorem coord_vertNo (hi : i ≤ nx) (hj : j ≤ ny) : coord x y z nx ny (vertNo nx ny i j k) = ![x i, y j, z k] := by
  unfold coord vertNo
  rw [pos_mod (by omega), pos_mod2 (by omega) (by omega), pos_div2 (by omega) (by omega)]

/-! ### Cells -/

theorem mem_simplices {c : DSimplex K} :
    c ∈ simplices sq x y z nx ny nz ↔
      ∃ i j k t, i < nx ∧ j < ny ∧ k < nz ∧ c = simplex sq x y z nx ny i j k t := by
  unfold simplices
  simp only [List.mem_flatMap, List.mem_range, List.mem_map]
  constructor
  · rintro ⟨m, hm, t, -, rfl⟩
    have hnx : 0 < nx := Nat.pos_of_ne_zero (by rintro rfl; simp at hm)
    have hny : 0 < ny := Nat.pos_of_ne_zero (by rintro rfl; simp at hm)
    refine ⟨m % nx, m / nx % ny, m / nx / ny, t, Nat.mod_lt _ hnx, Nat.mod_lt _ hny, ?_, rfl⟩
    refine Nat.div_lt_of_lt_mul (Nat.div_lt_of_lt_mul ?_)
    rwa [← Nat.mul_assoc]
  · rintro ⟨i, j, k, t, hi, hj, hk, rfl⟩
    refine ⟨(k * ny + j) * nx + i, pos_lt hi hj hk, t, by cases t <;> simp, ?_⟩
    rw [pos_mod hi, pos_mod2 hi hj, pos_div2 hi hj]

theorem tetNo_inj (hi : i < nx) (hj : j < ny) (hi' : i' < nx) (hj' : j' < ny)
    (h : tetNo nx ny i j k t = tetNo nx ny i' j' k' t') : i = i' ∧ j = j' ∧ k = k' ∧ t = t' := by
  unfold tetNo at h
  have ht : t.no < 6 := by cases t <;> decide
  have ht' : t'.no < 6 := by cases t' <;> decide
  have h1 : (k * ny + j) * nx + i = (k' * ny + j') * nx + i' := by omega
  have h2 : t.no = t'.no := by omega
  obtain ⟨a, b, c⟩ := pos_inj hi hj hi' hj' h1
  refine ⟨a, b, c, ?_⟩
  cases t <;> cases t' <;> first | rfl | (simp [Tet.no] at h2)

theorem simplices_nodup : ((simplices sq x y z nx ny nz).map (·.index)).Nodup := by
  have h : (simplices sq x y z nx ny nz).map (·.index) =
      (List.range (nx * ny * nz)).flatMap (fun m : Nat =>
        [6 * (m : Int), 6 * (m : Int) + 1, 6 * (m : Int) + 2, 6 * (m : Int) + 3, 6 * (m : Int) + 4, 6 * (m : Int) + 5]) := by
    unfold simplices
    rw [List.map_flatMap]
    congr 1
    funext m
    have : (m / nx / ny * ny + m / nx % ny) * nx + m % nx = m := by
      rw [Nat.mul_comm (m / nx / ny), Nat.div_add_mod, Nat.mul_comm, Nat.div_add_mod]
    simp only [List.map_cons, List.map_nil, simplex, tetNo, this, Tet.no]
    simp
  rw [h, List.nodup_flatMap]
  constructor
  · intro m _
    simp
  · refine List.Pairwise.imp ?_ (List.nodup_range (n := nx * ny * nz))
    intro a b hab
    simp only [Function.onFun, List.disjoint_iff_ne, List.mem_cons, List.not_mem_nil, or_false]
    rintro u (rfl | rfl | rfl | rfl | rfl | rfl) w (rfl | rfl | rfl | rfl | rfl | rfl) <;> omega

/-! ### Facets -/

theorem label_bound {l : Nat × Nat × Nat × Nat} (hi : i < nx) (hj : j < ny) (h : l ∈ labels i j k t) :
    l.1 ≤ nx ∧ l.2.1 ≤ ny ∧ l.2.2.2 < 12 := by
  cases t <;> simp only [labels, List.mem_cons, List.not_mem_nil, or_false] at h <;>
    rcases h with rfl | rfl | rfl | rfl <;> simp <;> omega

theorem facetNo_inj {l l' : Nat × Nat × Nat × Nat} (h : l.1 ≤ nx ∧ l.2.1 ≤ ny ∧ l.2.2.2 < 12)
    (h' : l'.1 ≤ nx ∧ l'.2.1 ≤ ny ∧ l'.2.2.2 < 12) (e : facetNo nx ny l = facetNo nx ny l') : l = l' := by
  obtain ⟨a, b, c, d⟩ := l
  obtain ⟨a', b', c', d'⟩ := l'
  simp only [facetNo] at *
  have e1 : vertNo nx ny a b c = vertNo nx ny a' b' c' := by omega
  have e2 : d = d' := by omega
  obtain ⟨rfl, rfl, rfl⟩ := vertNo_inj h.1 h.2.1 h'.1 h'.2.1 e1
  rw [e2]

/-- The tetrahedra that can have a facet. -/
def owners : Nat × Nat × Nat × Nat → (Nat × Nat × Nat × Tet) × (Nat × Nat × Nat × Tet)
  | (i, j, k, 0) => ((i, j, k, .xyz), (i, j, k - 1, .zxy))
  | (i, j, k, 1) => ((i, j, k, .xzy), (i, j - 1, k, .yxz))
  | (i, j, k, 2) => ((i, j, k, .yxz), (i, j, k - 1, .zyx))
  | (i, j, k, 3) => ((i, j, k, .yzx), (i - 1, j, k, .xyz))
  | (i, j, k, 4) => ((i, j, k, .zxy), (i, j - 1, k, .yzx))
  | (i, j, k, 5) => ((i, j, k, .zyx), (i - 1, j, k, .xzy))
  | (i, j, k, 6) => ((i, j, k, .yzx), (i, j, k, .zyx))
  | (i, j, k, 7) => ((i, j, k, .xzy), (i, j, k, .zxy))
  | (i, j, k, 8) => ((i, j, k, .xyz), (i, j, k, .yxz))
  | (i, j, k, 9) => ((i, j, k, .xyz), (i, j, k, .xzy))
  | (i, j, k, 10) => ((i, j, k, .yxz), (i, j, k, .yzx))
  | (i, j, k, _) => ((i, j, k, .zxy), (i, j, k, .zyx))

theorem owner_cases {l : Nat × Nat × Nat × Nat} (h : l ∈ labels i j k t) :
    (i, j, k, t) = (owners l).1 ∨ (i, j, k, t) = (owners l).2 := by
  cases t <;> simp only [labels, List.mem_cons, List.not_mem_nil, or_false] at h <;>
    rcases h with rfl | rfl | rfl | rfl <;> simp [owners]

theorem labels_nodup (i j k : Nat) (t : Tet) : (labels i j k t).Nodup := by
  cases t <;> simp [labels]

theorem manifold (sq : K → K) (x y z : Nat → K) (nx ny nz : Nat) : Manifold (dmesh sq x y z nx ny nz).topo (3 + 1) := by
  have hmem : ∀ c ∈ (dmesh sq x y z nx ny nz).topo.cells, ∃ i j k t, i < nx ∧ j < ny ∧ k < nz ∧
      c = (tetNo nx ny i j k t, (labels i j k t).map (facetNo nx ny)) := by
    intro c hc
    obtain ⟨a, ha, rfl⟩ := List.mem_map.1 hc
    obtain ⟨i, j, k, t, hi, hj, hk, rfl⟩ := mem_simplices.1 ha
    exact ⟨i, j, k, t, hi, hj, hk, rfl⟩
  have hatt : ∀ c F, c ∈ (dmesh sq x y z nx ny nz).topo.attached F ↔ HasFacet (dmesh sq x y z nx ny nz).topo c F := by
    intro c F
    simp only [DMesh.topo, dmesh, List.mem_map, List.mem_filter, decide_eq_true_eq]
    constructor
    · rintro ⟨a, ⟨h1, h2⟩, rfl⟩
      exact ⟨a.facets, List.mem_map.2 ⟨a, h1, rfl⟩, h2⟩
    · rintro ⟨fs, hfs, hF⟩
      obtain ⟨a, ha, he⟩ := List.mem_map.1 hfs
      simp only [Prod.mk.injEq] at he
      obtain ⟨rfl, rfl⟩ := he
      exact ⟨a, ⟨ha, hF⟩, rfl⟩
  have honce : ∀ F, ((dmesh sq x y z nx ny nz).topo.attached F).Nodup := by
    intro F
    have : ((dmesh sq x y z nx ny nz).topo.attached F).Sublist ((simplices sq x y z nx ny nz).map (·.index)) :=
      List.Sublist.map _ List.filter_sublist
    exact List.Nodup.sublist this simplices_nodup
  have hinv : ∀ c F, c ∈ (dmesh sq x y z nx ny nz).topo.attached F → ∃ i j k t l, i < nx ∧ j < ny ∧ c = tetNo nx ny i j k t ∧
      l ∈ labels i j k t ∧ F = facetNo nx ny l := by
    intro c F h
    obtain ⟨fs, hfs, hF⟩ := (hatt c F).1 h
    obtain ⟨i, j, k, t, hi, hj, -, e⟩ := hmem _ hfs
    simp only [Prod.mk.injEq] at e
    obtain ⟨rfl, rfl⟩ := e
    obtain ⟨l, hl, rfl⟩ := List.mem_map.1 hF
    exact ⟨i, j, k, t, l, hi, hj, rfl, hl, rfl⟩
  refine ⟨?_, ?_, ?_, ?_, hatt, honce, ?_⟩
  · rw [topo_keys]; exact simplices_nodup
  · intro c hc
    obtain ⟨i, j, k, t, -, -, -, rfl⟩ := hmem c hc
    show 0 ≤ tetNo nx ny i j k t
    unfold tetNo; omega
  · intro c hc
    obtain ⟨i, j, k, t, -, -, -, rfl⟩ := hmem c hc
    cases t <;> rfl
  · intro c hc
    obtain ⟨i, j, k, t, hi, hj, -, rfl⟩ := hmem c hc
    refine List.Nodup.map_on ?_ (labels_nodup i j k t)
    intro l hl l' hl' h
    exact facetNo_inj (label_bound hi hj hl) (label_bound hi hj hl') h
  · intro F
    cases hl : (dmesh sq x y z nx ny nz).topo.attached F with
    | nil => simp
    | cons c rest =>
      obtain ⟨i, j, k, t, l, hi, hj, -, hlab, rfl⟩ := hinv c F (by rw [hl]; exact List.mem_cons_self ..)
      have hsub : (dmesh sq x y z nx ny nz).topo.attached (facetNo nx ny l) ⊆
          [tetNo nx ny (owners l).1.1 (owners l).1.2.1 (owners l).1.2.2.1 (owners l).1.2.2.2,
           tetNo nx ny (owners l).2.1 (owners l).2.2.1 (owners l).2.2.2.1 (owners l).2.2.2.2] := by
        intro c' hc'
        obtain ⟨i', j', k', t', l', hi', hj', rfl, hlab', hF⟩ := hinv c' _ hc'
        obtain rfl := facetNo_inj (label_bound hi hj hlab) (label_bound hi' hj' hlab') hF
        rcases owner_cases hlab' with h | h <;> rw [← h] <;> simp
      have := (List.subperm_of_subset (honce (facetNo nx ny l)) hsub).length_le
      rw [hl] at this
      simpa using this

/-- The vertices of a facet. -/
def labelVerts (nx ny : Nat) : Nat × Nat × Nat × Nat → Nat × Nat × Nat
  | (i, j, k, 0) => (vertNo nx ny i j k, vertNo nx ny (i + 1) j k, vertNo nx ny (i + 1) (j + 1) k)
  | (i, j, k, 1) => (vertNo nx ny i j k, vertNo nx ny (i + 1) j k, vertNo nx ny (i + 1) j (k + 1))
  | (i, j, k, 2) => (vertNo nx ny i j k, vertNo nx ny i (j + 1) k, vertNo nx ny (i + 1) (j + 1) k)
  | (i, j, k, 3) => (vertNo nx ny i j k, vertNo nx ny i (j + 1) k, vertNo nx ny i (j + 1) (k + 1))
  | (i, j, k, 4) => (vertNo nx ny i j k, vertNo nx ny i j (k + 1), vertNo nx ny (i + 1) j (k + 1))
  | (i, j, k, 5) => (vertNo nx ny i j k, vertNo nx ny i j (k + 1), vertNo nx ny i (j + 1) (k + 1))
  | (i, j, k, 6) => (vertNo nx ny i j k, vertNo nx ny i (j + 1) (k + 1), vertNo nx ny (i + 1) (j + 1) (k + 1))
  | (i, j, k, 7) => (vertNo nx ny i j k, vertNo nx ny (i + 1) j (k + 1), vertNo nx ny (i + 1) (j + 1) (k + 1))
  | (i, j, k, 8) => (vertNo nx ny i j k, vertNo nx ny (i + 1) (j + 1) k, vertNo nx ny (i + 1) (j + 1) (k + 1))
  | (i, j, k, 9) => (vertNo nx ny i j k, vertNo nx ny (i + 1) j k, vertNo nx ny (i + 1) (j + 1) (k + 1))
  | (i, j, k, 10) => (vertNo nx ny i j k, vertNo nx ny i (j + 1) k, vertNo nx ny (i + 1) (j + 1) (k + 1))
  | (i, j, k, _) => (vertNo nx ny i j k, vertNo nx ny i j (k + 1), vertNo nx ny (i + 1) (j + 1) (k + 1))

theorem get4 {α : Type} {a b c d v : α} {m : Nat} :
    [a, b, c, d][m]? = some v ↔ (m = 0 ∧ a = v) ∨ (m = 1 ∧ b = v) ∨ (m = 2 ∧ c = v) ∨ (m = 3 ∧ d = v) := by
  rcases m with _ | _ | _ | _ | m <;> simp

theorem ofFacet4 {c : DSimplex K} {a b e f : Nat} (h : c.verts = [a, b, e, f]) (m v : Nat) :
    OfFacet 3 c m v ↔ (m ≠ 0 ∧ a = v) ∨ (m ≠ 1 ∧ b = v) ∨ (m ≠ 2 ∧ e = v) ∨ (m ≠ 3 ∧ f = v) := by
  unfold OfFacet onFacet
  simp only [h, get4, if_neg (by decide : ¬ 3 = 1)]
  constructor
  · rintro ⟨j, hj, ⟨rfl, h⟩ | ⟨rfl, h⟩ | ⟨rfl, h⟩ | ⟨rfl, h⟩⟩
    · exact .inl ⟨Ne.symm hj, h⟩
    · exact .inr (.inl ⟨Ne.symm hj, h⟩)
    · exact .inr (.inr (.inl ⟨Ne.symm hj, h⟩))
    · exact .inr (.inr (.inr ⟨Ne.symm hj, h⟩))
  · rintro (⟨h1, h2⟩ | ⟨h1, h2⟩ | ⟨h1, h2⟩ | ⟨h1, h2⟩)
    · exact ⟨0, Ne.symm h1, .inl ⟨rfl, h2⟩⟩
    · exact ⟨1, Ne.symm h1, .inr (.inl ⟨rfl, h2⟩)⟩
    · exact ⟨2, Ne.symm h1, .inr (.inr (.inl ⟨rfl, h2⟩))⟩
    · exact ⟨3, Ne.symm h1, .inr (.inr (.inr ⟨rfl, h2⟩))⟩

theorem ofFacet_label {m : Nat} {l : Nat × Nat × Nat × Nat} (hl : (labels i j k t)[m]? = some l) (v : Nat) :
    OfFacet 3 (simplex sq x y z nx ny i j k t) m v ↔
      v = (labelVerts nx ny l).1 ∨ v = (labelVerts nx ny l).2.1 ∨ v = (labelVerts nx ny l).2.2 := by
  have hk : m < 4 := by
    have := (List.getElem?_eq_some_iff.1 hl).1
    have e : (labels i j k t).length = 4 := by cases t <;> rfl
    omega
  cases t <;> rw [ofFacet4 rfl] <;> interval_cases m <;> cases hl <;> simp [labelVerts, eq_comm]

theorem same_facet : ∀ c ∈ (dmesh sq x y z nx ny nz).cells, ∀ c' ∈ (dmesh sq x y z nx ny nz).cells, ∀ m m' F,
    c.facets[m]? = some F → c'.facets[m']? = some F → ∀ v, OfFacet 3 c m v ↔ OfFacet 3 c' m' v := by
  intro c hc c' hc' m m' F hm hm' v
  obtain ⟨i, j, k, t, hi, hj, hk, rfl⟩ := mem_simplices.1 hc
  obtain ⟨i', j', k', t', hi', hj', hk', rfl⟩ := mem_simplices.1 hc'
  simp only [simplex, List.getElem?_map, Option.map_eq_some_iff] at hm hm'
  obtain ⟨l, hl, rfl⟩ := hm
  obtain ⟨l', hl', h⟩ := hm'
  obtain rfl := facetNo_inj (label_bound hi' hj' (List.mem_of_getElem? hl')) (label_bound hi hj (List.mem_of_getElem? hl)) h
  rw [ofFacet_label hl, ofFacet_label hl']

/-! ### Corners -/

theorem step_get (t : Tet) (m : Fin 4) : ∃ s, t.steps[m.1]? = some s ∧ s.1 ≤ 1 ∧ s.2.1 ≤ 1 ∧ s.2.2 ≤ 1 := by
  fin_cases m <;> cases t <;> exact ⟨_, rfl, by decide, by decide, by decide⟩

/-- The steps to corner `m`. -/
def step (t : Tet) (m : Nat) : Nat × Nat × Nat := (t.steps[m]?).getD 0

theorem corner_simplex (hi : i < nx) (hj : j < ny) (m : Fin 4) :
    corner (dmesh sq x y z nx ny nz) (simplex sq x y z nx ny i j k t) m =
      ![x (i + (step t m).1), y (j + (step t m).2.1), z (k + (step t m).2.2)] := by
  obtain ⟨s, hs, h1, h2, h3⟩ := step_get t m
  unfold corner
  simp only [dmesh, simplex, tetVerts, List.getElem?_map, hs, Option.map_some, Option.getD_some, step]
  exact coord_vertNo (by omega) (by omega)

theorem normal_simplex (m : Fin 4) :
    (simplex sq x y z nx ny i j k t).normal m =
      normals sq (fun a => corner (dmesh sq x y z nx ny nz) (simplex sq x y z nx ny i j k t) (Fin.ofNat 4 a)) m := by
  fin_cases m <;> rfl

end Box
end Dt
