import Verif.Spec.Crossed
import Verif.Lemmas.CrossedGrid
import Verif.Props.Sector
import Verif.Lemmas.CrossedMark
import Mathlib.Analysis.SpecialFunctions.Pow.Asymptotics

/-!
# The mesh with crossed diagonals on a sector of a ring (C99)
-/

set_option linter.unusedSectionVars false

namespace Dt
open Real Dt.Topology Spec Sector Spec.Sector Rect Mark Spec.Mark

/-- The mesh with NumPy's functions. -/
noncomputable abbrev crossedSector (rmin rmax stretch tmax : ℝ) (nr nt : Nat) : DMesh ℝ 2 :=
  Crossed.circleMesh cos sin sqrt (· ^ stretch) rmin rmax tmax nr nt

section
variable {rmin rmax stretch tmax : ℝ} {nr nt : Nat}

/-- The height in the cone of the middle of a box in ring `i`. -/
noncomputable def height (rmin rmax stretch tmax : ℝ) (nr nt i : Nat) : ℝ :=
  radius rmin rmax stretch ((i + 1 / 2) / nr) / cos (tmax / nt / 2)

theorem cos_half_pos (h : Proper rmin rmax stretch tmax nr nt) : 0 < cos (tmax / nt / 2) := by
  have ht : (0 : ℝ) < nt := by exact_mod_cast h.rays
  have := div_pos h.angle ht
  exact cos_pos_of_mem_Ioo ⟨by linarith [pi_pos], by linarith [h.half]⟩

theorem sector_mids (h : Proper rmin rmax stretch tmax nr nt) :
    Crossed.DrawsMid (fun p => cylinder cos sin tmax (denser rmin rmax (· ^ stretch) (p 0)) (p 1)) (gridPoint rmin rmax nr)
      (gridPoint 0 1 nt) (height rmin rmax stretch tmax nr nt) (ray tmax nt) nr nt := by
  intro i hi j hj
  have hc := (cos_half_pos h).ne'
  have h1 : ((gridPoint rmin rmax nr i + gridPoint rmin rmax nr (i + 1)) / 2 - rmin) / (rmax - rmin) = (i + 1 / 2) / nr := by
    unfold gridPoint
    have : rmax - rmin ≠ 0 := (sub_pos.2 h.outer).ne'
    push_cast
    field_simp
    ring
  have h2 : tmax * ((gridPoint 0 1 nt j + gridPoint 0 1 nt (j + 1)) / 2) = ray tmax nt j + tmax / nt / 2 := by
    unfold gridPoint ray
    push_cast
    ring
  have h3 : ray tmax nt (j + 1) = ray tmax nt j + tmax / nt / 2 + tmax / nt / 2 := by
    unfold ray
    push_cast
    ring
  have h4 : ray tmax nt j = ray tmax nt j + tmax / nt / 2 - tmax / nt / 2 := by ring
  have e0 : cos (ray tmax nt j) + cos (ray tmax nt (j + 1)) = 2 * cos (tmax / nt / 2) * cos (ray tmax nt j + tmax / nt / 2) := by
    rw [h3, cos_add (ray tmax nt j + tmax / nt / 2)]
    nth_rewrite 1 [h4]
    rw [cos_sub]
    ring
  have e1 : sin (ray tmax nt j) + sin (ray tmax nt (j + 1)) = 2 * cos (tmax / nt / 2) * sin (ray tmax nt j + tmax / nt / 2) := by
    rw [h3, sin_add (ray tmax nt j + tmax / nt / 2)]
    nth_rewrite 1 [h4]
    rw [sin_sub]
    ring
  funext k
  fin_cases k
  · simp only [cylinder, denser, Crossed.cone, height, radius, dir, Matrix.cons_val_zero, Matrix.cons_val_one, Fin.zero_eta, Fin.isValue, h1, h2]
    rw [← mul_add, e0]
    generalize cos (tmax / nt / 2) = q at hc
    field_simp
  · simp only [cylinder, denser, Crossed.cone, height, radius, dir, Matrix.cons_val_zero, Matrix.cons_val_one, Fin.mk_one, Fin.isValue, h1, h2]
    rw [← mul_add, e1]
    generalize cos (tmax / nt / 2) = q at hc
    field_simp

theorem ring_eq (i : Nat) : Dt.ring rmin rmax stretch nr i = radius rmin rmax stretch (i / nr) := rfl

/-- The middles are always above the inner chord. -/
theorem height_gt (h : Proper rmin rmax stretch tmax nr nt) (i : Nat) :
    Dt.ring rmin rmax stretch nr i < height rmin rmax stretch tmax nr nt i := by
  have hc := cos_half_pos h
  have hn : (0 : ℝ) < nr := by exact_mod_cast h.radial
  unfold height
  rw [lt_div_iff₀ hc, ring_eq]
  have h1 : radius rmin rmax stretch (i / nr) < radius rmin rmax stretch ((i + 1 / 2) / nr) := by
    unfold radius
    have : (i / nr : ℝ) ^ stretch < ((i + 1 / 2) / nr : ℝ) ^ stretch := by
      refine rpow_lt_rpow (by positivity) ?_ h.stretch
      gcongr
      linarith
    have := mul_lt_mul_of_pos_left this (sub_pos.2 h.outer)
    linarith
  have h0 : 0 < radius rmin rmax stretch (i / nr) := by
    unfold radius
    have : 0 ≤ (i / nr : ℝ) ^ stretch := by positivity
    have := mul_nonneg (sub_pos.2 h.outer).le this
    linarith [h.inner]
  have h2 := cos_le_one (tmax / nt / 2)
  nlinarith

theorem fits_inside (h : Proper rmin rmax stretch tmax nr nt) : Fits rmin rmax stretch tmax nr nt ↔
    Crossed.Inside (Dt.ring rmin rmax stretch nr) (height rmin rmax stretch tmax nr nt) nr := by
  have hc := cos_half_pos h
  constructor
  · intro hf i hi
    refine ⟨height_gt h i, ?_⟩
    unfold height
    rw [div_lt_iff₀ hc, ring_eq]
    push_cast
    exact hf i hi
  · intro hf i hi
    have := (hf i hi).2
    unfold height at this
    rw [div_lt_iff₀ hc, ring_eq] at this
    push_cast at this
    exact this

namespace Crossed

/-- If the middle of a box is on the outer chord a triangle is flat; if it is beyond it, two triangles overlap. -/
theorem crossed_beyond {R T M : Nat → ℝ} {i j : Nat} {x y : Nat → ℝ} {f : Vec ℝ 2 → Vec ℝ 2} {sq : ℝ → ℝ}
    (h : Polar R T nr nt) (hf : Draws f x y R T nr nt) (hm : DrawsMid f x y M T nr nt)
    (hi : i < nr) (hj : j < nt) (hM : R (i + 1) ≤ M i) :
    ¬ Triangulation (by decide : 2 ≤ 3) (redraw sqrt f (dmesh sq x y nr nt)) := by
  have h0 := h.posAt (i := i) hi.le
  have h1 := h.posAt (i := i + 1) hi
  have hr := h.radius i hi
  obtain ⟨c, hc, hx, -, -, e⟩ := redraw_mem (f := f) (x := x) (y := y) (sq := sq) (sr := sqrt) hi hj .right
  rcases hM.eq_or_lt with he | hlt
  · refine flat_not hc ?_
    have ha := area_drawn (sq := sq) (t := .right) hf hm hi hj
    rw [size, he, sub_self, mul_zero, zero_mul] at ha
    unfold triArea
    rw [e]
    unfold Sector.area at ha
    dsimp only
    rw [ha, abs_zero, zero_div]
  · obtain ⟨c', hc', hx', -, -, e'⟩ := redraw_mem (f := f) (x := x) (y := y) (sq := sq) (sr := sqrt) hi hj .bottom
    intro hD
    have hne : c'.index ≠ c.index := by
      rw [hx, hx']
      unfold triNo
      simp [Tri.no]
    set r := R i
    set r' := R (i + 1)
    set m := M i
    have d1 : 0 < m - r' := by linarith
    have d2 : 0 < r' - r := by linarith
    have hm0 : 0 < m := by linarith
    set Z := -((r' - r) / (m - r')) with hZ
    set Y := m * (r' - r) / (2 * r' * (m - r')) with hY
    set X := 1 - Y - Z with hX
    have hYpos : 0 < Y := by positivity
    set α := 1 / (2 + 2 * |X| + 2 * |Z|) with hα
    have hden : 0 < 2 + 2 * |X| + 2 * |Z| := by positivity
    have hαpos : 0 < α := by positivity
    have hα1 : α * (2 + 2 * |X| + 2 * |Z|) = 1 := by rw [hα]; field_simp
    have aX := mul_nonneg hαpos.le (abs_nonneg X)
    have aZ := mul_nonneg hαpos.le (abs_nonneg Z)
    have bX := mul_nonneg hαpos.le (by linarith [neg_abs_le X] : 0 ≤ X + |X|)
    have bZ := mul_nonneg hαpos.le (by linarith [neg_abs_le Z] : 0 ≤ Z + |Z|)
    have three : ∀ {u v w : ℝ}, 0 < u → 0 < v → 0 < w → ∀ k, 0 < (![u, v, w] : Fin 3 → ℝ) k := by
      intro u v w hu hv hw k
      fin_cases k
      · exact hu
      · exact hv
      · exact hw
    have key : combine r r' m .bottom ![α, (1 - α) / 2, (1 - α) / 2] =
        combine r r' m .right ![(1 - α) / 2 + α * X, α * Y, (1 - α) / 2 + α * Z] := by
      have z1 : Y * r' + Z * (m / 2) = 0 := by rw [hY, hZ]; field_simp; ring
      have z2 : r = X * r' + Z * (m / 2) := by
        have : Z * (m - r') = -(r' - r) := by rw [hZ]; field_simp
        rw [hX]
        linear_combination z1 - this
      simp only [combine, place, Matrix.cons_val_zero, Matrix.cons_val_one, Matrix.cons_val, Prod.mk.injEq]
      constructor
      · linear_combination α * z2
      · linear_combination -α * z1
    refine hD.disjoint c' hc' c hc hne (fun k => (combine r r' m .bottom ![α, (1 - α) / 2, (1 - α) / 2]).1 * dir (T j) k +
      (combine r r' m .bottom ![α, (1 - α) / 2, (1 - α) / 2]).2 * dir (T (j + 1)) k) ⟨?_, ?_⟩
    · rw [e']
      refine ⟨![α, (1 - α) / 2, (1 - α) / 2], three hαpos (by nlinarith) (by nlinarith), ?_, fun k => ?_⟩
      · rw [Fin.sum_univ_three]
        simp only [Matrix.cons_val_zero, Matrix.cons_val_one, Matrix.cons_val]
        ring
      · exact (combine_eq (sq := sq) (t := .bottom) hf hm hi hj _ k).symm
    · rw [e, key]
      refine ⟨![(1 - α) / 2 + α * X, α * Y, (1 - α) / 2 + α * Z], three (by nlinarith) (by positivity) (by nlinarith), ?_, fun k => ?_⟩
      · rw [Fin.sum_univ_three]
        simp only [Matrix.cons_val_zero, Matrix.cons_val_one, Matrix.cons_val]
        rw [hX]
        ring
      · exact (combine_eq (sq := sq) (t := .right) hf hm hi hj _ k).symm

end Crossed

/-- C99 (triangles).  The mesh `create_mesh` makes of a sector with crossed diagonals is a triangulation if and only if
the middle of every box is nearer to the centre than the middle of its outer chord. -/
theorem C99_crossed (h : Proper rmin rmax stretch tmax nr nt) :
    Triangulation (by decide : 2 ≤ 3) (crossedSector rmin rmax stretch tmax nr nt) ↔ Fits rmin rmax stretch tmax nr nt := by
  constructor
  · intro hD
    rw [fits_inside h]
    intro i hi
    refine ⟨height_gt h i, ?_⟩
    by_contra hc
    exact Crossed.crossed_beyond (proper_polar h) (sector_draws h.outer) (sector_mids h) hi (by have := h.rays; omega : 0 < nt) (not_lt.1 hc) hD
  · intro hf
    exact Crossed.crossed_triangulation (proper_polar h) ((fits_inside h).1 hf) (sector_draws h.outer) (sector_mids h)

/-- C99 (vertices).  The vertices of the grid are where they are without the middles; the middle of a box is halfway between
its rays and halfway, before stretching, between its circles. -/
theorem C99_vertices (h : Proper rmin rmax stretch tmax nr nt) :
    (∀ i ≤ nr, ∀ j ≤ nt, (crossedSector rmin rmax stretch tmax nr nt).coord (vertNo nr i j) =
      at' (radius rmin rmax stretch (i / nr)) (tmax * j / nt)) ∧
    ∀ i < nr, ∀ j < nt, (crossedSector rmin rmax stretch tmax nr nt).coord ((nr + 1) * (nt + 1) + j * nr + i) =
      at' (radius rmin rmax stretch ((i + 1 / 2) / nr)) (tmax * (j + 1 / 2) / nt) := by
  constructor
  · intro i hi j hj
    show cylinder _ _ _ _ _ = _
    have := sector_draws (stretch := stretch) (tmax := tmax) (nr := nr) (nt := nt) h.outer i hi j hj
    dsimp only at this
    rw [show (Crossed.dmesh sqrt (gridPoint rmin rmax nr) (gridPoint 0 1 nt) nr nt).coord (vertNo nr i j) = _ from Crossed.coord_grid hi hj, this]
    funext k
    fin_cases k <;> rfl
  · intro i hi j hj
    show cylinder _ _ _ _ _ = _
    rw [show (Crossed.dmesh sqrt (gridPoint rmin rmax nr) (gridPoint 0 1 nt) nr nt).coord ((nr + 1) * (nt + 1) + j * nr + i) = _ from Crossed.coord_mid hi]
    have h1 : ((gridPoint rmin rmax nr i + gridPoint rmin rmax nr (i + 1)) / 2 - rmin) / (rmax - rmin) = (i + 1 / 2) / nr := by
      unfold gridPoint
      have : rmax - rmin ≠ 0 := (sub_pos.2 h.outer).ne'
      push_cast
      field_simp
      ring
    have h2 : tmax * ((gridPoint 0 1 nt j + gridPoint 0 1 nt (j + 1)) / 2) = tmax * (j + 1 / 2) / nt := by
      unfold gridPoint
      push_cast
      ring
    funext k
    fin_cases k <;> simp [cylinder, denser, radius, at', h1, h2]

/-- C99 (points).  Then the triangles cover the sector, as without the middles. -/
theorem C99_points (h : Proper rmin rmax stretch tmax nr nt) (hf : Fits rmin rmax stretch tmax nr nt) (p : Vec ℝ 2) :
    (∃ c ∈ (crossedSector rmin rmax stretch tmax nr nt).cells, InHull (corner (crossedSector rmin rmax stretch tmax nr nt) c) p) ↔
      OnSector rmin rmax tmax nt p := by
  have := Crossed.crossed_points (sq := sqrt) (sr := sqrt) (proper_polar h) ((fits_inside h).1 hf) (sector_draws h.outer) (sector_mids h) h.radial p
  rw [ring_zero h.stretch, ring_last h.radial] at this
  rw [show (∃ c ∈ (crossedSector rmin rmax stretch tmax nr nt).cells, InHull (corner (crossedSector rmin rmax stretch tmax nr nt) c) p) ↔ _
    from this]
  unfold OnSector
  simp only [at_sum]

/-! ### Facets -/

open Crossed (Tri triNo labels facetNo labelEnds midNo)

/-- The facets of the mesh. -/
theorem crossed_facet {c : DSimplex ℝ} (hc : c ∈ (crossedSector rmin rmax stretch tmax nr nt).cells) {k : Nat} {F : Int}
    (hF : c.facets[k]? = some F) : ∃ i j t l, i < nr ∧ j < nt ∧ c.index = triNo nr i j t ∧ (labels i j t)[k]? = some l ∧ F = facetNo nr l ∧
      ∀ v, OfFacet 2 c k v ↔ v = (labelEnds nr nt l).1 ∨ v = (labelEnds nr nt l).2 := by
  obtain ⟨i, j, t, hi, hj, hx, hv, hf, -⟩ := Crossed.mem_redraw hc
  rw [hf, List.getElem?_map, Option.map_eq_some_iff] at hF
  obtain ⟨l, hl, rfl⟩ := hF
  exact ⟨i, j, t, l, hi, hj, hx, hl, rfl, Crossed.ofFacet_label hl hv⟩

theorem crossed_mem {i j : Nat} (hi : i < nr) (hj : j < nt) (t : Tri) : ∃ c ∈ (crossedSector rmin rmax stretch tmax nr nt).cells,
    c.index = triNo nr i j t ∧ c.facets = (labels i j t).map (facetNo nr) ∧
    c.verts = [Crossed.cornerNo nr i j t.ends.1, Crossed.cornerNo nr i j t.ends.2, midNo nr nt i j] ∧
    ∀ k l, (labels i j t)[k]? = some l → ∀ v, OfFacet 2 c k v ↔ v = (labelEnds nr nt l).1 ∨ v = (labelEnds nr nt l).2 := by
  obtain ⟨c, hc, hx, hv, hf, -⟩ := Crossed.redraw_mem (sr := sqrt) (sq := sqrt)
    (f := fun p => cylinder cos sin tmax (denser rmin rmax (· ^ stretch) (p 0)) (p 1))
    (x := gridPoint rmin rmax nr) (y := gridPoint 0 1 nt) hi hj t
  exact ⟨c, hc, hx, hf, hv, fun k l hl => Crossed.ofFacet_label hl hv⟩

/-- The vertices on the inner and on the outer circle. -/
theorem crossed_circles (hnr : 1 ≤ nr) (hnt : 1 ≤ nt) {fm : RFacet ℝ → Int} {fa fb : Int} (ha : 0 < fa) (hb : 0 < fb) (hne : fa ≠ fb)
    (m1 : ∀ j < nt, fm (.v 0 j) = fa) (m2 : ∀ j < nt, fm (.v nr j) = fb) (m3 : ∀ i j, 0 < i → i < nr → j < nt → fm (.v i j) = 0)
    (m4 : ∀ i j, i < nr → j ≤ nt → fm (.h i j) = 0) (m5 : ∀ a b, fm (.inner a b) = 0) (n : Nat) :
    (Spec.OnSide (crossedSector rmin rmax stretch tmax nr nt) (Crossed.markerOf (gridPoint rmin rmax nr) (gridPoint 0 1 nt) nr nt fm) fa n ↔
      ∃ j ≤ nt, n = vertNo nr 0 j) ∧
    (Spec.OnSide (crossedSector rmin rmax stretch tmax nr nt) (Crossed.markerOf (gridPoint rmin rmax nr) (gridPoint 0 1 nt) nr nt fm) fb n ↔
      ∃ j ≤ nt, n = vertNo nr nr j) := by
  have which : ∀ {t : Int}, 0 < t → Spec.OnSide (crossedSector rmin rmax stretch tmax nr nt)
      (Crossed.markerOf (gridPoint rmin rmax nr) (gridPoint 0 1 nt) nr nt fm) t n →
      ∃ i ≤ nr, ∃ j < nt, fm (.v i j) = t ∧ (n = vertNo nr i j ∨ n = vertNo nr i (j + 1)) := by
    rintro t ht ⟨c, hc, k, F, -, hF, hm, ho⟩
    obtain ⟨i, j, s, l, hi, hj, -, hl, rfl, hof⟩ := crossed_facet hc hF
    rw [hof] at ho
    rcases Crossed.label_cases hi hj (List.mem_of_getElem? hl) with ⟨I, J, rfl, hI, hJ⟩ | ⟨I, J, rfl, hI, hJ⟩ | ⟨q, hq, rfl⟩
    · rw [Crossed.marker_h hI hJ, m4 I J hI hJ] at hm; omega
    · rw [Crossed.marker_v hI hJ] at hm
      exact ⟨I, hI, J, hJ, hm, ho⟩
    · rw [Crossed.marker_spoke m5 hi hj hq] at hm; omega
  have inner : ∀ j < nt, ∀ v, v = vertNo nr 0 j ∨ v = vertNo nr 0 (j + 1) → Spec.OnSide (crossedSector rmin rmax stretch tmax nr nt)
      (Crossed.markerOf (gridPoint rmin rmax nr) (gridPoint 0 1 nt) nr nt fm) fa v := by
    intro j hj v hv
    obtain ⟨c, hc, -, hf, -, ho⟩ := crossed_mem (rmin := rmin) (rmax := rmax) (stretch := stretch) (tmax := tmax) (by omega : 0 < nr) hj .left
    exact ⟨c, hc, 2, facetNo nr (0, j, 1), by decide, by rw [hf]; rfl, by rw [Crossed.marker_v (by omega) hj, m1 j hj],
      (ho 2 (0, j, 1) rfl v).2 hv⟩
  have outer : ∀ j < nt, ∀ v, v = vertNo nr nr j ∨ v = vertNo nr nr (j + 1) → Spec.OnSide (crossedSector rmin rmax stretch tmax nr nt)
      (Crossed.markerOf (gridPoint rmin rmax nr) (gridPoint 0 1 nt) nr nt fm) fb v := by
    intro j hj v hv
    obtain ⟨m, rfl⟩ := Nat.exists_eq_add_of_le' hnr
    obtain ⟨c, hc, -, hf, -, ho⟩ := crossed_mem (rmin := rmin) (rmax := rmax) (stretch := stretch) (tmax := tmax) (by omega : m < m + 1) hj .right
    exact ⟨c, hc, 2, facetNo (m + 1) (m + 1, j, 1), by decide, by rw [hf]; rfl, by rw [Crossed.marker_v le_rfl hj, m2 j hj],
      (ho 2 (m + 1, j, 1) rfl v).2 hv⟩
  constructor
  · constructor
    · intro h
      obtain ⟨i, hi, j, hj, hf, hv⟩ := which ha h
      have hi0 : i = 0 := by
        by_contra h0
        by_cases hn : i = nr
        · subst hn; rw [m2 j hj] at hf; exact hne hf.symm
        · rw [m3 i j (by omega) (by omega) hj] at hf; omega
      subst hi0
      rcases hv with h | h
      · exact ⟨j, hj.le, h⟩
      · exact ⟨j + 1, hj, h⟩
    · rintro ⟨j, hj, rfl⟩
      by_cases hjn : j < nt
      · exact inner j hjn _ (.inl rfl)
      · obtain ⟨m, rfl⟩ := Nat.exists_eq_add_of_le' (by omega : 1 ≤ j)
        exact inner m (by omega) _ (.inr rfl)
  · constructor
    · intro h
      obtain ⟨i, hi, j, hj, hf, hv⟩ := which hb h
      have hi0 : i = nr := by
        by_contra hn
        by_cases h0 : i = 0
        · subst h0; rw [m1 j hj] at hf; exact hne hf
        · rw [m3 i j (by omega) (by omega) hj] at hf; omega
      subst hi0
      rcases hv with h | h
      · exact ⟨j, hj.le, h⟩
      · exact ⟨j + 1, hj, h⟩
    · rintro ⟨j, hj, rfl⟩
      by_cases hjn : j < nt
      · exact outer j hjn _ (.inl rfl)
      · obtain ⟨m, rfl⟩ := Nat.exists_eq_add_of_le' (by omega : 1 ≤ j)
        exact outer m (by omega) _ (.inr rfl)

/-- The last number of a vertex. -/
theorem mid_le {i j : Nat} (hi : i < nr) (hj : j < nt) : midNo nr nt i j ≤ (nr + 1) * (nt + 1) + nr * nt - 1 := by
  unfold midNo
  have : (j + 1) * nr ≤ nt * nr := Nat.mul_le_mul_right _ hj
  have e : (j + 1) * nr = j * nr + nr := by ring
  have e' : nr * nt = nt * nr := Nat.mul_comm _ _
  omega

theorem grid_lt {i j : Nat} (hi : i ≤ nr) (hj : j ≤ nt) : vertNo nr i j < (nr + 1) * (nt + 1) := by
  have := vert_le (n := nt) hi hj
  have : 0 < (nr + 1) * (nt + 1) := by positivity
  omega

/-- Every vertex is joined to the inner circle. -/
theorem crossed_linked (hnr : 1 ≤ nr) (hnt : 1 ≤ nt) {S : Nat → Prop} (hS : ∀ j ≤ nt, S (vertNo nr 0 j)) :
    ∀ n ≤ (nr + 1) * (nt + 1) + nr * nt - 1, Linked (crossedSector rmin rmax stretch tmax nr nt) S n := by
  have key : ∀ i ≤ nr, ∀ j ≤ nt, Linked (crossedSector rmin rmax stretch tmax nr nt) S (vertNo nr i j) := by
    intro i
    induction i with
    | zero => intro _ j hj; exact .base (hS j hj)
    | succ i ih =>
      intro hi j hj
      by_cases hjn : j < nt
      · obtain ⟨c, hc, -, -, hv, -⟩ := crossed_mem (rmin := rmin) (rmax := rmax) (stretch := stretch) (tmax := tmax) (by omega : i < nr) hjn .bottom
        exact .step hc (by rw [hv]; simp [Crossed.cornerNo, Tri.ends] : vertNo nr i j ∈ c.verts) (by rw [hv]; simp [Crossed.cornerNo, Tri.ends]) (ih (by omega) j hj)
      · obtain ⟨m, rfl⟩ := Nat.exists_eq_add_of_le' (by omega : 1 ≤ j)
        obtain ⟨c, hc, -, -, hv, -⟩ := crossed_mem (rmin := rmin) (rmax := rmax) (stretch := stretch) (tmax := tmax) (by omega : i < nr) (by omega : m < nt) .top
        exact .step hc (by rw [hv]; simp [Crossed.cornerNo, Tri.ends] : vertNo nr i (m + 1) ∈ c.verts) (by rw [hv]; simp [Crossed.cornerNo, Tri.ends]) (ih (by omega) (m + 1) hj)
  intro n hn
  have hpos : 0 < nr * nt := Nat.mul_pos hnr hnt
  by_cases hlt : n < (nr + 1) * (nt + 1)
  · have h1 : n % (nr + 1) ≤ nr := Nat.lt_succ_iff.1 (Nat.mod_lt _ (by omega))
    have h2 : n / (nr + 1) ≤ nt := Nat.lt_succ_iff.1 (Nat.div_lt_of_lt_mul hlt)
    have e : vertNo nr (n % (nr + 1)) (n / (nr + 1)) = n := by
      unfold vertNo
      rw [Nat.mul_comm]
      exact Nat.div_add_mod _ _
    rw [← e]
    exact key _ h1 _ h2
  · obtain ⟨m, rfl⟩ := Nat.exists_eq_add_of_le (not_lt.1 hlt)
    have hm : m < nr * nt := by omega
    have h1 : m % nr < nr := Nat.mod_lt _ (by omega)
    have h2 : m / nr < nt := Nat.div_lt_of_lt_mul hm
    have e : midNo nr nt (m % nr) (m / nr) = (nr + 1) * (nt + 1) + m := by
      unfold midNo
      rw [Nat.add_assoc, Nat.mul_comm (m / nr), Nat.div_add_mod]
    rw [← e]
    obtain ⟨c, hc, -, -, hv, -⟩ := crossed_mem (rmin := rmin) (rmax := rmax) (stretch := stretch) (tmax := tmax) h1 h2 .bottom
    exact .step hc (by rw [hv]; simp [Crossed.cornerNo, Tri.ends] : vertNo nr (m % nr) (m / nr) ∈ c.verts) (by rw [hv]; simp) (key _ h1.le _ h2.le)

/-- C99 (potential).  Then the Poisson solver for this mesh and its marks has, for all charges, just one solution, the
potential of electrostatics with the given numbers on the two circles, as without the middles (C98). -/
theorem C99_solver (h : Proper rmin rmax stretch tmax nr nt) (hfit : Fits rmin rmax stretch tmax nr nt) {fd : Dict} (hfd : IsDict fd)
    {fa fb : Int} (f1 : ("rmin", fa) ∈ fd)
    (f2 : ("rmax", fb) ∈ fd) (e1 : 0 < fa) (e2 : 0 < fb) (hne : fa ≠ fb) (hdx : (1 / 10 ^ 10 : ℝ) ≤ (rmax - rmin) / nr)
    {pd : Option Dict} {ms : Marks (RFacet ℝ)} (e : createCircle rmin rmax nr nt (some fd) pd = .ok ms) {eps v0 vN : ℝ} (he : 0 < eps)
    {bc : List (String × Int × Poisson.Val ℝ)} (b1 : bc.lookup "rmin" = some (fa, .num v0)) (b2 : bc.lookup "rmax" = some (fb, .num vN))
    {D : DMesh ℝ 2} (hD : D = crossedSector rmin rmax stretch tmax nr nt) {N : Nat} (hN : N = (nr + 1) * (nt + 1) + nr * nt - 1) :
    ∃ fm marker grad s, ms.field = some fm ∧ marker = Crossed.markerOf (gridPoint rmin rmax nr) (gridPoint 0 1 nt) nr nt fm ∧
      Meshed D ⟨grad, fun c => triArea (corner D c)⟩ N ∧
      Poisson.createOn eps D ⟨grad, fun c => triArea (corner D c)⟩ N marker bc = .ok s ∧
      ∀ Q : List ℝ, Q.length = N + 1 →
        (∃! U, Solves N s.A (Poisson.applyVecOn (Poisson.touches D marker) s.bcs Q) U) ∧
        ∀ U, Solves N s.A (Poisson.applyVecOn (Poisson.touches D marker) s.bcs Q) U →
          (∀ j ≤ nt, U.getD (vertNo nr 0 j) 0 = v0 ∧ U.getD (vertNo nr nr j) 0 = vN) ∧
          ∃ F, Poisson.negEOn D ⟨grad, fun c => triArea (corner D c)⟩ U = D.cells.map F ∧
            Electrostatics eps D (fun c => triArea (corner D c)) N marker fa fb v0 vN (fun i => Q.getD i 0) (fun i => U.getD i 0) F := by
  subst hD hN
  obtain ⟨fm, hfm, m1, m2, m3, m4, m5⟩ := field_marks h.outer h.radial hfd f1 f2 e1.le e2.le hdx e
  have hT := (C99_crossed h).2 hfit
  have hside := crossed_circles (rmin := rmin) (rmax := rmax) (stretch := stretch) (tmax := tmax) h.radial h.rays e1 e2 hne m1 m2 m3 m4 m5
  obtain ⟨grad, hm⟩ := C94_shape hT (N := (nr + 1) * (nt + 1) + nr * nt - 1) (fun c hc v hv => by
    obtain ⟨i, j, t, hi, hj, -, hv', -, -⟩ := Crossed.mem_redraw hc
    rw [hv'] at hv
    have p1 := grid_lt (nt := nt) (nr := nr) hi.le hj.le
    have p2 := grid_lt (nt := nt) (nr := nr) (i := i + 1) hi hj.le
    have p3 := grid_lt (nt := nt) (nr := nr) (j := j + 1) hi.le hj
    have p4 := grid_lt (nt := nt) (nr := nr) (i := i + 1) (j := j + 1) hi hj
    have p5 := mid_le hi hj
    cases t <;> simp only [Crossed.simplex, Crossed.cornerNo, Tri.ends, List.mem_cons, List.not_mem_nil, or_false] at hv <;>
      (rcases hv with rfl | rfl | rfl <;> omega)) (vol := fun c => triArea (corner (crossedSector rmin rmax stretch tmax nr nt) c))
    (fun c hc => triArea_pos hT hc)
  obtain ⟨s, hs, hall⟩ := C94_potential he hm (marker := Crossed.markerOf (gridPoint rmin rmax nr) (gridPoint 0 1 nt) nr nt fm)
    (crossed_linked h.radial h.rays (fun j hj => .inl ((hside _).1.2 ⟨j, hj, rfl⟩))) b1 b2
  refine ⟨fm, _, grad, s, hfm, rfl, hm, hs, fun Q hQ => ⟨(hall Q hQ).1, fun U hU => ?_⟩⟩
  obtain ⟨F, hF, hE⟩ := (hall Q hQ).2 U hU
  refine ⟨fun j hj => ⟨?_, ?_⟩, F, hF, hE⟩
  · refine hE.sides.low _ ((hside _).1.2 ⟨j, hj, rfl⟩) ?_
    rw [(hside _).2]
    rintro ⟨j', -, h'⟩
    have := (vertNo_inj (Nat.zero_le _) le_rfl h').1
    have := h.radial
    omega
  · exact hE.sides.high _ ((hside _).2.2 ⟨j, hj, rfl⟩)

/-! ### Particles -/

theorem mid_no_side {i j : Nat} (sd : Rect.Side) : ¬ OnSideV nr nt (midNo nr nt i j) sd := by
  have hm : (nr + 1) * (nt + 1) ≤ midNo nr nt i j := by unfold midNo; omega
  cases sd <;> rintro ⟨a, ha, e⟩ <;> rw [e] at hm
  · have := grid_lt (nr := nr) (nt := nt) (Nat.zero_le _) ha; omega
  · have := grid_lt (nr := nr) (nt := nt) le_rfl ha; omega
  · have := grid_lt (nr := nr) (nt := nt) ha (Nat.zero_le _); omega
  · have := grid_lt (nr := nr) (nt := nt) ha le_rfl; omega

theorem side_h {I J : Nat} (hI : I < nr) (sd : Rect.Side) :
    (OnSideV nr nt (vertNo nr I J) sd ∧ OnSideV nr nt (vertNo nr (I + 1) J) sd) ↔ (sd = .bottom ∧ J = 0) ∨ (sd = .top ∧ J = nt) := by
  constructor
  · rintro ⟨h1, h2⟩
    cases sd <;> obtain ⟨a, ha, e1⟩ := h1 <;> obtain ⟨b, hb, e2⟩ := h2
    · have := (vertNo_inj (by omega) (by omega) e2).1; omega
    · have := (vertNo_inj (by omega) (by omega) e1).1; omega
    · exact .inl ⟨rfl, (vertNo_inj (by omega) (by omega) e1).2⟩
    · exact .inr ⟨rfl, (vertNo_inj (by omega) (by omega) e1).2⟩
  · rintro (⟨rfl, rfl⟩ | ⟨rfl, rfl⟩)
    · exact ⟨⟨I, hI.le, rfl⟩, I + 1, hI, rfl⟩
    · exact ⟨⟨I, hI.le, rfl⟩, I + 1, hI, rfl⟩

theorem side_v {I J : Nat} (hI : I ≤ nr) (hJ : J < nt) (sd : Rect.Side) :
    (OnSideV nr nt (vertNo nr I J) sd ∧ OnSideV nr nt (vertNo nr I (J + 1)) sd) ↔ (sd = .left ∧ I = 0) ∨ (sd = .right ∧ I = nr) := by
  constructor
  · rintro ⟨h1, h2⟩
    cases sd <;> obtain ⟨a, ha, e1⟩ := h1 <;> obtain ⟨b, hb, e2⟩ := h2
    · exact .inl ⟨rfl, (vertNo_inj (by omega) (by omega) e1).1⟩
    · exact .inr ⟨rfl, (vertNo_inj (by omega) (by omega) e1).1⟩
    · have := (vertNo_inj (by omega) (by omega) e2).2; omega
    · have := (vertNo_inj (by omega) (by omega) e1).2; omega
  · rintro (⟨rfl, rfl⟩ | ⟨rfl, rfl⟩)
    · exact ⟨⟨J, hJ.le, rfl⟩, J + 1, hJ, rfl⟩
    · exact ⟨⟨J, hJ.le, rfl⟩, J + 1, hJ, rfl⟩

/-- C99 (particles).  Then the mesh for particles is made, covers the sector, has the tags of its sides on them and 0
elsewhere, and the mover keeps every particle in the triangle with the number in its record, or deletes it, or stops because too many facets
are crossed, as without the middles (C98). -/
theorem C99_mover {τ ρ : Type} (h : Proper rmin rmax stretch tmax nr nt) (hfit : Fits rmin rmax stretch tmax nr nt) {pd : Dict}
    (hpd : IsDict pd) {tag : Rect.Side → Int}
    (htag : ∀ sd, (sideName sd, tag sd) ∈ pd) (hpos : ∀ sd, 0 < tag sd) (hw : (1 / 10 ^ 10 : ℝ) ≤ rmax - rmin)
    (hdt : (1 / 10 ^ 10 : ℝ) ≤ 1 / nt) {fo : Option Dict} {ms : Marks (RFacet ℝ)}
    (e : createCircle rmin rmax nr nt fo (some pd) = .ok ms) {D : DMesh ℝ 2}
    (hD : D = crossedSector rmin rmax stretch tmax nr nt) (junk : Int) {p : Nat} (hp : 2 ≤ p) :
    ∃ pm M, ms.particle = some pm ∧
      buildMesh (by decide) D junk (Crossed.markerOf (gridPoint rmin rmax nr) (gridPoint 0 1 nt) nr nt pm) = .ok M ∧ M.Conforming ∧
      (∀ q, M.Points q ↔ OnSector rmin rmax tmax nt q) ∧
      (∀ c ∈ D.cells, ∀ k F, c.facets[k]? = some F →
        (∀ sd, (∀ v, OfFacet 2 c k v → OnSideV nr nt v sd) → M.marker F = tag sd) ∧
        ((∀ sd, ¬ ∀ v, OfFacet 2 c k v → OnSideV nr nt v sd) → M.marker F = 0)) ∧
      ∀ {v : Variant}, v.datum = .ok () →
        ∀ {bc : Int → τ → BCall ℝ 2 p ρ → Except Err (τ × Part ℝ p ρ)}, GoodBC hp M (v.sharesDx = true) bc → KeepsCell bc →
        ∀ (n : Nat) (time dt qmdt : ℝ) (accel : Bool) (E : Part ℝ p ρ → Option (Vec ℝ p)) (st : τ × Vec ℝ p)
          (q : Part ℝ p ρ), (∃ c ∈ D.cells, c.index = q.cell ∧ InHull (corner D c) (proj hp q.x)) →
        (∃ st' q' evs, moveCharged hp M v bc n time dt qmdt accel E st q = .ok (st', q', evs) ∧
          ((∃ c ∈ D.cells, c.index = q'.cell ∧ InHull (corner D c) (proj hp q'.x)) ∨ (q'.del = true ∧ q'.cell = -1))) ∨
        moveCharged hp M v bc n time dt qmdt accel E st q = .error (v.err .tooMany) := by
  subst hD
  have hT := (C99_crossed h).2 hfit
  obtain ⟨pm, hpm, hv⟩ : ∃ pm, ms.particle = some pm ∧ ∀ f, IsRect nr nt f →
      pm f = rectTag nr nt (tag .left) (tag .right) (tag .bottom) (tag .top) f := by
    unfold createCircle at e
    simp only [bind, Except.bind, pure, Except.pure] at e
    split at e
    · cases e
    · have h1 : ("rmin", tag .left) ∈ pd := htag .left
      have h2 : ("rmax", tag .right) ∈ pd := htag .right
      have h3 : ("thmin", tag .bottom) ∈ pd := htag .bottom
      have h4 : ("thmax", tag .top) ∈ pd := htag .top
      rw [markFour_ok _ hpd h1 h2 h3 h4 (hpos _).le (hpos _).le (hpos _).le (hpos _).le] at e
      cases e
      exact ⟨_, rfl, fun f hf => rect_val h.outer zero_lt_one h.radial h.rays hw (by rw [sub_zero]; exact hdt) _ _ _ _ f hf⟩
  set marker := Crossed.markerOf (gridPoint rmin rmax nr) (gridPoint 0 1 nt) nr nt pm with hmk
  have hin : ∀ a b, pm (.inner a b) = 0 := fun a b => hv (.inner a b) trivial
  have hnr := h.radial
  have hnt := h.rays
  have mh : ∀ {I J}, I < nr → J ≤ nt → marker (facetNo nr (I, J, 0)) = if J = 0 then tag .bottom else if J = nt then tag .top else 0 := by
    intro I J hI hJ
    rw [hmk, Crossed.marker_h hI hJ, hv (.h I J) ⟨hI, hJ⟩]
    rfl
  have mv : ∀ {I J}, I ≤ nr → J < nt → marker (facetNo nr (I, J, 1)) = if I = 0 then tag .left else if I = nr then tag .right else 0 := by
    intro I J hI hJ
    rw [hmk, Crossed.marker_v hI hJ, hv (.v I J) ⟨hI, hJ⟩]
    rfl
  have hb : ∀ c ∈ (crossedSector rmin rmax stretch tmax nr nt).cells, ∀ F ∈ c.facets,
      (∀ c' ∈ (crossedSector rmin rmax stretch tmax nr nt).cells, F ∈ c'.facets → c'.index = c.index) → marker F ≠ 0 := by
    intro c hc F hF hone
    obtain ⟨k, hk⟩ := List.getElem?_of_mem hF
    obtain ⟨i, j, t, l, hi, hj, hx, hl, rfl, -⟩ := crossed_facet hc hk
    have both : ∀ {i1 j1 t1 i2 j2 t2}, i1 < nr → j1 < nt → i2 < nr → j2 < nt → l ∈ labels i1 j1 t1 → l ∈ labels i2 j2 t2 →
        i1 = i2 ∧ j1 = j2 ∧ t1 = t2 := by
      intro i1 j1 t1 i2 j2 t2 a1 b1 a2 b2 l1 l2
      obtain ⟨c1, hc1, hx1, hf1, -, -⟩ := crossed_mem (rmin := rmin) (rmax := rmax) (stretch := stretch) (tmax := tmax) a1 b1 t1
      obtain ⟨c2, hc2, hx2, hf2, -, -⟩ := crossed_mem (rmin := rmin) (rmax := rmax) (stretch := stretch) (tmax := tmax) a2 b2 t2
      have e1 := hone c1 hc1 (by rw [hf1]; exact List.mem_map_of_mem l1)
      have e2 := hone c2 hc2 (by rw [hf2]; exact List.mem_map_of_mem l2)
      rw [hx1] at e1
      rw [hx2] at e2
      exact Crossed.triNo_inj a1 a2 (e1.trans e2.symm)
    rcases Crossed.label_cases hi hj (List.mem_of_getElem? hl) with ⟨I, J, rfl, hI, hJ⟩ | ⟨I, J, rfl, hI, hJ⟩ | ⟨q, hq, rfl⟩
    · rw [mh hI hJ]
      by_cases h0 : J = 0
      · rw [if_pos h0]; exact (hpos _).ne'
      · by_cases hn : J = nt
        · rw [if_neg h0, if_pos hn]; exact (hpos _).ne'
        · obtain ⟨J, rfl⟩ := Nat.exists_eq_add_of_le' (by omega : 1 ≤ J)
          have := (both hI (by omega : J + 1 < nt) hI (by omega : J < nt) (t1 := .bottom) (t2 := .top) (by simp [labels]) (by simp [labels])).2.1
          omega
    · rw [mv hI hJ]
      by_cases h0 : I = 0
      · rw [if_pos h0]; exact (hpos _).ne'
      · by_cases hn : I = nr
        · rw [if_neg h0, if_pos hn]; exact (hpos _).ne'
        · obtain ⟨I, rfl⟩ := Nat.exists_eq_add_of_le' (by omega : 1 ≤ I)
          have := (both (by omega : I + 1 < nr) hJ (by omega : I < nr) hJ (t1 := .left) (t2 := .right) (by simp [labels]) (by simp [labels])).1
          omega
    · exfalso
      interval_cases q
      · have := (both hi hj hi hj (t1 := .bottom) (t2 := .left) (by simp [labels]) (by simp [labels])).2.2; cases this
      · have := (both hi hj hi hj (t1 := .bottom) (t2 := .right) (by simp [labels]) (by simp [labels])).2.2; cases this
      · have := (both hi hj hi hj (t1 := .left) (t2 := .top) (by simp [labels]) (by simp [labels])).2.2; cases this
      · have := (both hi hj hi hj (t1 := .right) (t2 := .top) (by simp [labels]) (by simp [labels])).2.2; cases this
  obtain ⟨M, eM, hmark, hconf⟩ := C88_conforming hT junk hb
  obtain ⟨M1, eM1, hpts, -⟩ := C88_points hT junk marker
  obtain ⟨M2, eM2, hmove⟩ := C88_mover (τ := τ) (ρ := ρ) hT junk hb hp
  rw [eM] at eM1 eM2
  cases eM1
  cases eM2
  refine ⟨pm, M, hpm, eM, hconf, fun q => (hpts q).trans (C99_points h hfit q), ?_, hmove⟩
  intro c hc k F hF
  obtain ⟨i, j, t, l, hi, hj, hx, hl, rfl, hof⟩ := crossed_facet hc hF
  have hall : ∀ sd, (∀ v, OfFacet 2 c k v → OnSideV nr nt v sd) ↔ OnSideV nr nt (labelEnds nr nt l).1 sd ∧ OnSideV nr nt (labelEnds nr nt l).2 sd := by
    intro sd
    constructor
    · intro h'
      exact ⟨h' _ ((hof _).2 (.inl rfl)), h' _ ((hof _).2 (.inr rfl))⟩
    · rintro ⟨h1, h2⟩ v hv
      rcases (hof v).1 hv with rfl | rfl
      · exact h1
      · exact h2
  simp only [hall]
  rw [hmark]
  rcases Crossed.label_cases hi hj (List.mem_of_getElem? hl) with ⟨I, J, rfl, hI, hJ⟩ | ⟨I, J, rfl, hI, hJ⟩ | ⟨q, hq, rfl⟩
  · rw [mh hI hJ]
    simp only [labelEnds, side_h hI]
    constructor
    · rintro sd (⟨rfl, rfl⟩ | ⟨rfl, rfl⟩)
      · rw [if_pos rfl]
      · rw [if_neg (by omega), if_pos rfl]
    · intro hno
      rw [if_neg (fun h0 => hno .bottom (.inl ⟨rfl, h0⟩)), if_neg (fun h0 => hno .top (.inr ⟨rfl, h0⟩))]
  · rw [mv hI hJ]
    simp only [labelEnds, side_v hI hJ]
    constructor
    · rintro sd (⟨rfl, rfl⟩ | ⟨rfl, rfl⟩)
      · rw [if_pos rfl]
      · rw [if_neg (by omega), if_pos rfl]
    · intro hno
      rw [if_neg (fun h0 => hno .left (.inl ⟨rfl, h0⟩)), if_neg (fun h0 => hno .right (.inr ⟨rfl, h0⟩))]
  · refine ⟨fun sd hs => absurd hs.2 (mid_no_side sd), fun _ => ?_⟩
    rw [hmk]
    exact Crossed.marker_spoke hin hi hj hq

/-- C99 is false without the condition: whatever the sector and the number of rays, if there are enough circles the mesh
has flat or overlapping triangles.  There is no check. -/
theorem C99_false_fine (hr : 0 < rmin) (hr' : rmin < rmax) (hs : 0 < stretch) (ht : 0 < tmax) (ht' : tmax ≤ 2 * π) (hnt : 1 ≤ nt)
    (hh : tmax / nt < π) : ∃ n, ∀ nr ≥ n, ¬ Triangulation (by decide : 2 ≤ 3) (crossedSector rmin rmax stretch tmax nr nt) := by
  have hnt' : (0 : ℝ) < nt := by exact_mod_cast hnt
  have hδ := div_pos ht hnt'
  have hc : cos (tmax / nt / 2) < 1 := by
    rw [← cos_zero]
    exact cos_lt_cos_of_nonneg_of_le_pi le_rfl (by linarith) (by linarith)
  have hlim : Filter.Tendsto (fun n : Nat => (rmax - rmin) * ((n : ℝ)) ^ (-stretch)) Filter.atTop (nhds ((rmax - rmin) * 0)) :=
    ((tendsto_rpow_neg_atTop hs).comp tendsto_natCast_atTop_atTop).const_mul _
  rw [mul_zero] at hlim
  have hev := hlim.eventually (gt_mem_nhds (mul_pos hr (sub_pos.2 hc)))
  obtain ⟨n, hn⟩ := Filter.eventually_atTop.1 hev
  refine ⟨max n 1, fun nr hnr => ?_⟩
  have hnr1 : 1 ≤ nr := (le_max_right _ _).trans hnr
  have hP : Proper rmin rmax stretch tmax nr nt := ⟨hr, hr', hs, ht, ht', hnr1, hnt, hh⟩
  rw [C99_crossed hP]
  intro hf
  have h0 := hf 0 (by omega)
  have hb := hn nr ((le_max_left _ _).trans hnr)
  have hnr' : (0 : ℝ) < nr := by exact_mod_cast hnr1
  have e1 : ((1 : ℝ) / nr) ^ stretch = (nr : ℝ) ^ (-stretch) := by
    rw [one_div, inv_rpow hnr'.le, rpow_neg hnr'.le]
  have hcp := cos_half_pos hP
  unfold radius at h0
  rw [Nat.cast_zero, zero_add, zero_add, e1] at h0
  have k1 : 0 ≤ (rmax - rmin) * ((1 / 2 : ℝ) / nr) ^ stretch := mul_nonneg (sub_pos.2 hr').le (by positivity)
  have k2 : 0 ≤ (rmax - rmin) * (nr : ℝ) ^ (-stretch) := mul_nonneg (sub_pos.2 hr').le (by positivity)
  nlinarith

end

/-! ### Cases -/

/-- Half a ring from radius 1 to 2 with three sectors is fine ... -/
theorem half_fits : Proper 1 2 1 π 1 3 ∧ Fits 1 2 1 π 1 3 := by
  have := pi_pos
  refine ⟨⟨by norm_num, by norm_num, by norm_num, this, by linarith, le_rfl, by norm_num, by push_cast; linarith⟩, ?_⟩
  intro i hi
  obtain rfl : i = 0 := by omega
  have e : π / (3 : Nat) / 2 = π / 6 := by push_cast; ring
  rw [e, cos_pi_div_six]
  simp only [radius, rpow_one]
  norm_num
  have : (1.7 : ℝ) < √3 := by rw [lt_sqrt (by norm_num)]; norm_num
  linarith

example : Triangulation (by decide : 2 ≤ 3) (crossedSector 1 2 1 π 1 3) := (C99_crossed half_fits.1).2 half_fits.2

/-- ... and with two it is not, though without the middles it is. -/
theorem C99_false_half : (∀ d, Triangulation (by decide : 2 ≤ 3) (sector 1 2 1 π 1 2 d)) ∧
    ¬ Triangulation (by decide : 2 ≤ 3) (crossedSector 1 2 1 π 1 2) := by
  have := pi_pos
  have hP : Proper 1 2 1 π 1 2 := ⟨by norm_num, by norm_num, by norm_num, this, by linarith, le_rfl, by norm_num, by push_cast; linarith⟩
  refine ⟨fun d => C98_sector hP d, ?_⟩
  rw [C99_crossed hP]
  intro hf
  have h0 := hf 0 (by norm_num)
  have e : π / (2 : Nat) / 2 = π / 4 := by push_cast; ring
  rw [e, cos_pi_div_four] at h0
  simp only [radius, rpow_one] at h0
  norm_num at h0
  have : √2 < (1.5 : ℝ) := by rw [sqrt_lt' (by norm_num)]; norm_num
  linarith

/-- The solver and the mover on half a ring. -/
example : ∃ ms, createCircle (1 : ℝ) 2 1 3 (some [("rmin", 1), ("rmax", 2)])
    (some [("rmin", 1), ("rmax", 2), ("thmin", 3), ("thmax", 4)]) = .ok ms ∧
    ∃ fm grad s, ms.field = some fm ∧ Poisson.createOn 1 (crossedSector 1 2 1 π 1 3)
      ⟨grad, fun c => triArea (corner (crossedSector 1 2 1 π 1 3) c)⟩ 10
      (Crossed.markerOf (gridPoint 1 2 1) (gridPoint 0 1 3) 1 3 fm) [("rmin", 1, .num 0), ("rmax", 2, .num (-1.5))] = .ok s := by
  obtain ⟨fm, pm, e, -⟩ := C82_circle (rmin := (1 : ℝ)) (rmax := 2) (by norm_num) (nr := 1) (nt := 3) (by norm_num) (by norm_num)
    (fd := [("rmin", 1), ("rmax", 2)]) (pd := [("rmin", 1), ("rmax", 2), ("thmin", 3), ("thmax", 4)])
    (by unfold IsDict; decide) (by unfold IsDict; decide) (fa := 1) (fb := 2) (t1 := 1) (t2 := 2) (t3 := 3) (t4 := 4)
    (by simp) (by simp) (by decide) (by decide) (by simp) (by simp) (by simp) (by simp) (by decide) (by decide) (by decide) (by decide)
  obtain ⟨fm', _, grad, s, h1, rfl, -, h2, -⟩ := C99_solver half_fits.1 half_fits.2 (fd := [("rmin", 1), ("rmax", 2)]) (by unfold IsDict; decide)
    (fa := 1) (fb := 2) (by simp) (by simp) (by decide) (by decide) (by decide) (by norm_num) e (eps := 1) (v0 := 0) (vN := -1.5) one_pos
    (bc := [("rmin", 1, .num 0), ("rmax", 2, .num (-1.5))]) rfl rfl rfl (N := 10) (by norm_num)
  exact ⟨_, e, fm', grad, s, h1, h2⟩

end Dt
