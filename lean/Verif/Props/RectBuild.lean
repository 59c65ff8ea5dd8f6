import Verif.Model.RectBuild
import Verif.Props.MeshBuild

/-!
# The rectangle mesh is made by the dictionaries (C88)
-/

set_option linter.unusedSectionVars false

namespace Dt
open Dt.Topology Spec Rect
variable {K : Type} [Field K] [LinearOrder K] [IsStrictOrderedRing K]

namespace Rect

section
variable {x y : Nat → K} {d : Nat → Nat → Bool} {nx ny i j i' j' : Nat} {s s' : Bool}

theorem rowcol {a b a' b' : Nat} (h : b * (nx + 1) + a = b' * (nx + 1) + a') (ha : a ≤ nx) (ha' : a' ≤ nx) :
    a = a' ∧ b = b' := by
  have hmod : ∀ a b : Nat, a ≤ nx → (b * (nx + 1) + a) % (nx + 1) = a ∧ (b * (nx + 1) + a) / (nx + 1) = b := by
    intro a b ha
    constructor
    · rw [Nat.mul_comm, Nat.mul_add_mod]; exact Nat.mod_eq_of_lt (by omega)
    · rw [Nat.mul_comm, Nat.mul_add_div (by omega), Nat.div_eq_of_lt (by omega), Nat.add_zero]
  have h1 := hmod a b ha
  have h2 := hmod a' b' ha'
  rw [h] at h1
  exact ⟨h1.1.symm.trans h2.1, h1.2.symm.trans h2.2⟩

theorem cellNo_inj (hi : i < nx) (hi' : i' < nx) (h : cellNo nx i j s = cellNo nx i' j' s') :
    i = i' ∧ j = j' ∧ s = s' := by
  have hs : s = s' := by
    unfold cellNo at h
    cases s <;> cases s' <;> simp at h <;> first | rfl | omega
  subst hs
  have h2 : j * nx + i = j' * nx + i' := by
    unfold cellNo at h
    omega
  obtain ⟨n, rfl⟩ : ∃ n, nx = n + 1 := ⟨nx - 1, by omega⟩
  obtain ⟨e1, e2⟩ := rowcol h2 (by omega) (by omega)
  exact ⟨e1, e2, rfl⟩

theorem mem_simplices {c : DSimplex K} :
    c ∈ simplices x y d nx ny ↔ ∃ i j s, i < nx ∧ j < ny ∧ c = simplex x y d nx i j s := by
  unfold simplices
  simp only [List.mem_flatMap, List.mem_range, List.mem_cons, List.not_mem_nil, or_false]
  constructor
  · rintro ⟨m, hm, h⟩
    have hpos : 0 < nx := by
      rcases Nat.eq_zero_or_pos nx with h0 | h0
      · rw [h0, Nat.zero_mul] at hm; omega
      · exact h0
    have h1 : m % nx < nx := Nat.mod_lt _ hpos
    have h2 : m / nx < ny := by rw [Nat.div_lt_iff_lt_mul hpos, Nat.mul_comm]; exact hm
    rcases h with h | h
    · exact ⟨_, _, _, h1, h2, h⟩
    · exact ⟨_, _, _, h1, h2, h⟩
  · rintro ⟨i, j, s, hi, hj, rfl⟩
    have hlt : j * nx + i < nx * ny := by
      have : (j + 1) * nx ≤ ny * nx := Nat.mul_le_mul_right _ hj
      rw [Nat.mul_comm nx ny]
      nlinarith
    refine ⟨j * nx + i, hlt, ?_⟩
    have e1 : (j * nx + i) % nx = i := by
      rw [Nat.mul_comm, Nat.mul_add_mod]; exact Nat.mod_eq_of_lt hi
    have e2 : (j * nx + i) / nx = j := by
      rw [Nat.mul_comm, Nat.mul_add_div (by omega), Nat.div_eq_of_lt hi, Nat.add_zero]
    rw [e1, e2]
    cases s
    · exact .inl rfl
    · exact .inr rfl

/-- Edges with the same number. -/
theorem edgeNo_inj {e e' : Edge} (hi : i < nx) (hi' : i' < nx) (h : edgeNo nx i j e = edgeNo nx i' j' e') :
    (e = e' ∧ i = i' ∧ j = j') ∨ (e = .left ∧ e' = .right ∧ i = i' + 1 ∧ j = j') ∨
    (e = .right ∧ e' = .left ∧ i' = i + 1 ∧ j = j') ∨ (e = .bottom ∧ e' = .top ∧ i = i' ∧ j = j' + 1) ∨
    (e = .top ∧ e' = .bottom ∧ i = i' ∧ j' = j + 1) := by
  have H : ∀ {a b a' b' : Nat}, ((b * (nx + 1) + a : Nat) : Int) = ((b' * (nx + 1) + a' : Nat) : Int) → a ≤ nx → a' ≤ nx →
      a = a' ∧ b = b' := fun h => rowcol (by exact_mod_cast h)
  cases e <;> cases e' <;> simp only [edgeNo, hNo, vNo, dNo] at h <;>
    first
    | (exfalso; omega)
    | (obtain ⟨h1, h2⟩ := rowcol (Int.natCast_inj.1 (mul_left_cancel₀ three_ne_zero h)) (by omega) (by omega)
       simp
       omega)
    | (obtain ⟨h1, h2⟩ := rowcol (Int.natCast_inj.1 (mul_left_cancel₀ three_ne_zero (add_right_cancel h))) (by omega) (by omega)
       simp
       omega)

theorem owner_of {b s : Bool} {e : Edge} (h : e ∈ edges b s) (he : e ≠ .diag) : s = owner b e := by
  cases b <;> cases s <;> cases e <;> simp_all [edges, owner]

/-- A triangle with the same edge is the triangle or its neighbour. -/
theorem same_edge {e e' : Edge} (hi : i < nx) (hi' : i' < nx) (hj : j < ny) (hj' : j' < ny) (he : e ∈ edges (d i j) s)
    (he' : e' ∈ edges (d i' j') s') (h : edgeNo nx i j e = edgeNo nx i' j' e') :
    cellNo nx i' j' s' = cellNo nx i j s ∨ cellNo nx i' j' s' = across d nx ny i j s e := by
  rcases edgeNo_inj hi hi' h with ⟨rfl, rfl, rfl⟩ | ⟨rfl, rfl, rfl, rfl⟩ | ⟨rfl, rfl, rfl, rfl⟩ |
      ⟨rfl, rfl, rfl, rfl⟩ | ⟨rfl, rfl, rfl, rfl⟩
  · by_cases hd : e = .diag
    · subst hd
      by_cases hs : s' = s
      · exact .inl (by rw [hs])
      · refine .inr ?_
        have : s' = !s := by cases s <;> cases s' <;> simp_all
        rw [this]; rfl
    · rw [owner_of he hd, owner_of he' hd]; exact .inl rfl
  all_goals
    refine .inr ?_
    rw [owner_of he' (by decide)]
    simp only [across]
    rw [if_neg (by omega)]
    try simp only [Nat.add_sub_cancel]

/-- The neighbour has the edge. -/
theorem across_edge {e : Edge} (hi : i < nx) (hj : j < ny) (he : e ∈ edges (d i j) s) (h : across d nx ny i j s e ≠ -1) :
    across d nx ny i j s e ≠ cellNo nx i j s ∧
    ∃ i' j' s' e', i' < nx ∧ j' < ny ∧ across d nx ny i j s e = cellNo nx i' j' s' ∧ e' ∈ edges (d i' j') s' ∧
      edgeNo nx i' j' e' = edgeNo nx i j e := by
  rcases across_cases (K := ℚ) (x := fun _ => 0) (y := fun _ => 0) hi hj rfl h with ⟨rfl, h1⟩ | ⟨i', j', hi', hj', h1, h2, h3, -⟩
  · refine ⟨?_, i, j, !s, .diag, hi, hj, h1, List.mem_of_getElem? (edges_dplace _ _), rfl⟩
    rw [h1]
    intro hh
    obtain ⟨-, -, hs⟩ := cellNo_inj hi hi hh
    cases s <;> cases hs
  · refine ⟨?_, i', j', _, opp e, hi', hj', h1, List.mem_of_getElem? (edges_place _ _), h2⟩
    rw [h1]
    intro hh
    obtain ⟨rfl, rfl, -⟩ := cellNo_inj hi' hi hh
    rcases edgeNo_inj hi' hi' h2 with ⟨h4, -⟩ | ⟨-, -, h4, -⟩ | ⟨-, -, h4, -⟩ | ⟨-, -, -, h4⟩ | ⟨-, -, -, h4⟩
    · cases e <;> first | (exact h3 rfl) | (cases h4)
    all_goals omega

theorem simplices_nodup : ((simplices x y d nx ny).map (·.index)).Nodup := by
  have h : (simplices x y d nx ny).map (·.index) =
      (List.range (nx * ny)).flatMap (fun m => [cellNo nx (m % nx) (m / nx) false, cellNo nx (m % nx) (m / nx) true]) := by
    unfold simplices
    rw [List.map_flatMap]
    rfl
  rw [h, List.nodup_flatMap]
  have hno : ∀ m s, cellNo nx (m % nx) (m / nx) s = 2 * (m : Int) + (if s then 1 else 0) := by
    intro m s
    unfold cellNo
    have : m / nx * nx + m % nx = m := by rw [Nat.mul_comm]; exact Nat.div_add_mod m nx
    rw [this]
  constructor
  · intro m _
    simp [hno]
  · refine List.Pairwise.imp ?_ (List.nodup_range (n := nx * ny))
    intro a b hab
    simp only [Function.onFun, hno, List.disjoint_iff_ne, List.mem_cons, List.not_mem_nil, or_false]
    rintro u (rfl | rfl) w (rfl | rfl) <;> simp <;> omega

theorem hasFacet_iff {c F : Int} : HasFacet (dmesh x y d nx ny).topo c F ↔
    ∃ i j s e, i < nx ∧ j < ny ∧ c = cellNo nx i j s ∧ e ∈ edges (d i j) s ∧ F = edgeNo nx i j e := by
  unfold HasFacet
  constructor
  · rintro ⟨fs, hfs, hF⟩
    obtain ⟨a, ha, he⟩ := List.mem_map.1 hfs
    obtain ⟨i, j, s, hi, hj, rfl⟩ := mem_simplices.1 ha
    simp only [Prod.mk.injEq] at he
    obtain ⟨rfl, rfl⟩ := he
    obtain ⟨e, h1, h2⟩ := List.mem_map.1 hF
    exact ⟨i, j, s, e, hi, hj, rfl, h1, h2.symm⟩
  · rintro ⟨i, j, s, e, hi, hj, rfl, he, rfl⟩
    exact ⟨_, List.mem_map.2 ⟨simplex x y d nx i j s, mem_simplices.2 ⟨i, j, s, hi, hj, rfl⟩, rfl⟩,
      List.mem_map.2 ⟨e, he, rfl⟩⟩

theorem manifold (x y : Nat → K) (d : Nat → Nat → Bool) (nx ny : Nat) : Manifold (dmesh x y d nx ny).topo (2 + 1) := by
  have hmem : ∀ c ∈ (dmesh x y d nx ny).topo.cells, ∃ i j s, i < nx ∧ j < ny ∧
      c = (cellNo nx i j s, (edges (d i j) s).map (edgeNo nx i j)) := by
    intro c hc
    obtain ⟨a, ha, rfl⟩ := List.mem_map.1 hc
    obtain ⟨i, j, s, hi, hj, rfl⟩ := mem_simplices.1 ha
    exact ⟨i, j, s, hi, hj, rfl⟩
  have hatt : ∀ c F, c ∈ (dmesh x y d nx ny).topo.attached F ↔ HasFacet (dmesh x y d nx ny).topo c F := by
    intro c F
    simp only [DMesh.topo, dmesh, List.mem_map, List.mem_filter, decide_eq_true_eq]
    constructor
    · rintro ⟨a, ⟨h1, h2⟩, rfl⟩
      exact ⟨a.facets, List.mem_map.2 ⟨a, h1, rfl⟩, h2⟩
    · rintro ⟨fs, hfs, hF⟩
      obtain ⟨a, ha, he⟩ := List.mem_map.1 hfs
      simp only [Prod.mk.injEq] at he
      obtain ⟨rfl, rfl⟩ := he
      exact ⟨a, ⟨ha, hF⟩, rfl⟩
  have honce : ∀ F, ((dmesh x y d nx ny).topo.attached F).Nodup := by
    intro F
    have : ((dmesh x y d nx ny).topo.attached F).Sublist ((simplices x y d nx ny).map (·.index)) :=
      List.Sublist.map _ List.filter_sublist
    exact List.Nodup.sublist this simplices_nodup
  refine ⟨?_, ?_, ?_, ?_, hatt, honce, ?_⟩
  · rw [topo_keys]; exact simplices_nodup
  · intro c hc
    obtain ⟨i, j, s, -, -, rfl⟩ := hmem c hc
    show 0 ≤ cellNo nx i j s
    unfold cellNo; split <;> omega
  · intro c hc
    obtain ⟨i, j, s, -, -, rfl⟩ := hmem c hc
    simp [edges_length]
  · intro c hc
    obtain ⟨i, j, s, -, -, rfl⟩ := hmem c hc
    exact facets_nodup (x := x) (y := y) (ny := ny)
  · intro F
    cases hl : (dmesh x y d nx ny).topo.attached F with
    | nil => simp
    | cons c l =>
      obtain ⟨i, j, s, e, hi, hj, rfl, he, rfl⟩ := hasFacet_iff.1 ((hatt c F).1 (by rw [hl]; exact List.mem_cons_self ..))
      have hn := honce (edgeNo nx i j e)
      rw [hl, List.nodup_cons] at hn
      have hsub : l ⊆ [across d nx ny i j s e] := by
        intro c' hc'
        obtain ⟨i', j', s', e', hi', hj', rfl, he', hF⟩ := hasFacet_iff.1 ((hatt c' (edgeNo nx i j e)).1
          (by rw [hl]; exact List.mem_cons_of_mem _ hc'))
        rcases same_edge (d := d) (ny := ny) hi hi' hj hj' he he' hF with h | h
        · exact absurd (h ▸ hc') hn.1
        · rw [h]; simp
      have := (List.subperm_of_subset hn.2 hsub).length_le
      simp at this ⊢
      omega

theorem across_unique (hi : i < nx) (hj : j < ny) {e : Edge} (he : e ∈ edges (d i j) s) {v : Int}
    (h : IsNeighbor (dmesh x y d nx ny).topo (cellNo nx i j s) (edgeNo nx i j e) v) : v = across d nx ny i j s e := by
  rcases h with ⟨rfl, h⟩ | ⟨h1, h2⟩
  · by_contra hne
    obtain ⟨h3, i', j', s', e', hi', hj', h4, h5, h6⟩ := across_edge hi hj he (fun hh => hne hh.symm)
    exact h3 (h _ (hasFacet_iff.2 ⟨i', j', s', e', hi', hj', h4, h5, h6.symm⟩))
  · obtain ⟨i', j', s', e', hi', hj', rfl, h5, h6⟩ := hasFacet_iff.1 h2
    rcases same_edge (ny := ny) hi hi' hj hj' he h5 h6 with h | h
    · exact absurd h h1
    · exact h

theorem coord_vert (hi : i ≤ nx) : (dmesh x y d nx ny).coord (vertNo nx i j) = ![x i, y j] := by
  have e1 : (j * (nx + 1) + i) % (nx + 1) = i := by
    rw [Nat.mul_comm, Nat.mul_add_mod]; exact Nat.mod_eq_of_lt (by omega)
  have e2 : (j * (nx + 1) + i) / (nx + 1) = j := by
    rw [Nat.mul_comm, Nat.mul_add_div (by omega), Nat.div_eq_of_lt (by omega), Nat.add_zero]
  simp only [dmesh, vertNo, e1, e2]

theorem made_eq (hi : i < nx) {row : List Int}
    (hj : j < ny) (h : List.Forall₂ (IsNeighbor (dmesh x y d nx ny).topo (cellNo nx i j s))
      (simplex x y d nx i j s).facets row) :
    made (by decide : 2 ≤ 3) (dmesh x y d nx ny) (simplex x y d nx i j s) row = cell x y d nx ny i j s := by
  unfold made cell
  congr 1
  · simp only [simplex]
    cases d i j <;> cases s <;>
      simp only [cornerNos, corners, List.map_cons, List.map_nil, coord_vert (show i ≤ nx by omega),
        coord_vert (show i + 1 ≤ nx by omega)]
  · have hr : List.range (2 + 1) = [0, 1, 2] := rfl
    rw [hr]
    simp only [simplex, List.map_cons, List.map_nil]
    have hcut : ∀ n : Vec K 2, cutNormal (by decide : 2 ≤ 3) ![n 0, n 1, 0] = n := by
      intro n
      funext r
      fin_cases r <;> rfl
    cases d i j <;> cases s <;> simp [edges, hcut]
  · simp only [simplex] at h
    have hall : ∀ e ∈ edges (d i j) s, e ∈ edges (d i j) s := fun e he => he
    generalize hl : edges (d i j) s = l at h ⊢
    have hsub : ∀ e ∈ l, e ∈ edges (d i j) s := by rw [hl]; exact fun e he => he
    clear hl hall
    induction l generalizing row with
    | nil => cases h; rfl
    | cons e l ih =>
      rw [List.map_cons] at h
      cases h with
      | cons h1 h2 =>
        rw [List.map_cons, across_unique hi hj (hsub e (by simp)) h1, ih h2 (fun e he => hsub e (List.mem_cons_of_mem _ he))]

end

end Rect

/-- C88.  On the rectangle, the dictionaries computed from the vertices, facets and normals of Dolfin's
cells and from the cells at each facet are those of the mesh of C85 and C86: each cell has its corners,
normals and facets, and behind each facet the triangle that shares it, or none at the sides. -/
theorem C88_rectangle (x y : Nat → K) (d : Nat → Nat → Bool) (nx ny : Nat) (marker : Int → Int) (junk : Int) :
    buildMesh (by decide) (dmesh x y d nx ny) junk marker = .ok (Rect.mesh x y d nx ny marker) := by
  obtain ⟨M, e, hmk, hinv, hex⟩ := build_ok (hg := by decide) (manifold x y d nx ny) junk marker
  rw [e]
  congr 1
  have hcell : M.cell = (Rect.mesh x y d nx ny marker).cell := by
    funext ci
    cases h : M.cell ci with
    | some C =>
      obtain ⟨c, hc, rfl, row, hrow, rfl⟩ := hinv ci C h
      obtain ⟨i, j, s, hi, hj, rfl⟩ := mem_simplices.1 hc
      rw [made_eq hi hj hrow]
      exact (cell_at hi hj marker).symm
    | none =>
      cases h' : (Rect.mesh x y d nx ny marker).cell ci with
      | none => rfl
      | some C =>
        obtain ⟨i, j, s, hi, hj, rfl, -⟩ := cell_inv h'
        obtain ⟨row, hr⟩ := hex (simplex x y d nx i j s) (mem_simplices.2 ⟨i, j, s, hi, hj, rfl⟩)
        rw [show (simplex x y d nx i j s).index = cellNo nx i j s from rfl, h] at hr
        cases hr
  obtain ⟨mc, mm⟩ := M
  simp only at hcell hmk
  rw [hcell, hmk]
  rfl

/-- Two boxes side by side. -/
example : (dmesh (fun i => (i : ℚ)) (fun j => (j : ℚ)) (fun _ _ => true) 2 1).cells.length = 4 ∧
    (dmesh (fun i => (i : ℚ)) (fun j => (j : ℚ)) (fun _ _ => true) 2 1).attached 4 = [0, 3] := by
  constructor <;> decide +kernel

end Dt
