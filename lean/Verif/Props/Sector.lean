import Verif.Spec.Sector
import Verif.Lemmas.PolarGrid
import Verif.Props.Elements
import Verif.Props.RectMesh
import Mathlib.Analysis.SpecialFunctions.Pow.Real

/-!
# The mesh on a sector of a ring (C98)
-/

set_option linter.unusedSectionVars false

namespace Dt
open Real Dt.Topology Spec Sector Spec.Sector Rect Mark Spec.Mark

/-- The mesh with NumPy's functions. -/
noncomputable abbrev sector (rmin rmax stretch tmax : ℝ) (nr nt : Nat) (d : Nat → Nat → Bool) : DMesh ℝ 2 :=
  circleMesh cos sin sqrt (· ^ stretch) rmin rmax tmax nr nt d

section
variable {rmin rmax stretch tmax : ℝ} {nr nt : Nat} {d : Nat → Nat → Bool}

/-- The radius of the `i`-th circle. -/
noncomputable def ring (rmin rmax stretch : ℝ) (nr i : Nat) : ℝ := rmin + (rmax - rmin) * (i / nr : ℝ) ^ stretch

theorem ring_zero (hs : 0 < stretch) : ring rmin rmax stretch nr 0 = rmin := by
  unfold ring
  rw [Nat.cast_zero, zero_div, zero_rpow hs.ne', mul_zero, add_zero]

theorem ring_last (hn : 1 ≤ nr) : ring rmin rmax stretch nr nr = rmax := by
  unfold ring
  rw [div_self (by exact_mod_cast (by omega : nr ≠ 0)), one_rpow]
  ring

theorem sector_draws (hr : rmin < rmax) :
    Draws (fun p => cylinder cos sin tmax (denser rmin rmax (· ^ stretch) (p 0)) (p 1)) (gridPoint rmin rmax nr) (gridPoint 0 1 nt)
      (ring rmin rmax stretch nr) (ray tmax nt) nr nt := by
  intro i hi j hj
  have h1 : (gridPoint rmin rmax nr i - rmin) / (rmax - rmin) = i / nr := by
    unfold gridPoint
    have : rmax - rmin ≠ 0 := (sub_pos.2 hr).ne'
    field_simp
    ring
  have h2 : tmax * gridPoint 0 1 nt j = ray tmax nt j := by
    unfold gridPoint ray
    ring
  funext k
  fin_cases k <;> simp [cylinder, denser, polar, dir, ring, h1, h2]

theorem proper_polar (h : Proper rmin rmax stretch tmax nr nt) : Polar (ring rmin rmax stretch nr) (ray tmax nt) nr nt := by
  have hr : (0 : ℝ) < nr := by exact_mod_cast h.radial
  have ht : (0 : ℝ) < nt := by exact_mod_cast h.rays
  have hstep : ∀ j, ray tmax nt (j + 1) - ray tmax nt j = tmax / nt := by
    intro j
    unfold ray
    push_cast
    ring
  refine ⟨by rw [ring_zero h.stretch]; exact h.inner, ?_, ?_, ?_, ?_⟩
  · intro i hi
    unfold ring
    have : (i / nr : ℝ) ^ stretch < ((i + 1 : Nat) / nr : ℝ) ^ stretch := by
      refine rpow_lt_rpow (by positivity) ?_ h.stretch
      push_cast
      gcongr
      linarith
    have := mul_lt_mul_of_pos_left this (sub_pos.2 h.outer)
    linarith
  · intro j _
    have : 0 < tmax / nt := div_pos h.angle ht
    linarith [hstep j]
  · intro j _
    rw [hstep]
    exact h.half
  · unfold ray
    rw [mul_div_assoc, div_self ht.ne', Nat.cast_zero]
    have := h.turn
    simpa using this

/-- C98 (triangles).  The mesh `create_mesh` makes of a sector, with any choice of diagonals and any stretching, is a
triangulation: no triangle is flat, no two overlap, neighbours share an edge, normals point outward. -/
theorem C98_sector (h : Proper rmin rmax stretch tmax nr nt) (d : Nat → Nat → Bool) :
    Triangulation (by decide : 2 ≤ 3) (sector rmin rmax stretch tmax nr nt d) :=
  polar_triangulation (proper_polar h) (sector_draws h.outer)

theorem vert_le {n i j : Nat} (hi : i ≤ nr) (hj : j ≤ n) : vertNo nr i j ≤ (nr + 1) * (n + 1) - 1 := by
  unfold vertNo
  have : j * (nr + 1) ≤ n * (nr + 1) := Nat.mul_le_mul_right _ hj
  have e : (nr + 1) * (n + 1) = n * (nr + 1) + (nr + 1) := by ring
  omega

/-- C98 (vertices).  Vertex `(i, j)` is on circle `i`, whose radius grows with `i` from `rmin` to `rmax`, and on ray
`j`. -/
theorem C98_vertices (h : Proper rmin rmax stretch tmax nr nt) (d : Nat → Nat → Bool) :
    ∃ r : Nat → ℝ, r 0 = rmin ∧ r nr = rmax ∧ (∀ i < nr, r i < r (i + 1)) ∧
      ∀ i ≤ nr, ∀ j ≤ nt, (sector rmin rmax stretch tmax nr nt d).coord (vertNo nr i j) = at' (r i) (ray tmax nt j) := by
  refine ⟨ring rmin rmax stretch nr, ring_zero h.stretch, ring_last h.radial, (proper_polar h).radius, fun i hi j hj => ?_⟩
  show cylinder _ _ _ _ _ = _
  rw [coord_vert hi]
  have := sector_draws (stretch := stretch) (tmax := tmax) (nr := nr) (nt := nt) h.outer i hi j hj
  dsimp only at this
  rw [this]
  funext k
  fin_cases k <;> rfl

theorem at_sum {a b t u : ℝ} {p : Vec ℝ 2} : (∀ k, p k = a * dir t k + b * dir u k) ↔ p = at' a t + at' b u := by
  constructor
  · intro h
    funext k
    rw [h k]
    fin_cases k <;> simp [at', dir]
  · rintro rfl k
    fin_cases k <;> simp [at', dir]

/-- C98 (points).  The triangles cover the sector: all between the inner and the outer chords, nothing else. -/
theorem C98_points (h : Proper rmin rmax stretch tmax nr nt) (d : Nat → Nat → Bool) (p : Vec ℝ 2) :
    (∃ c ∈ (sector rmin rmax stretch tmax nr nt d).cells, InHull (corner (sector rmin rmax stretch tmax nr nt d) c) p) ↔
      OnSector rmin rmax tmax nt p := by
  have := polar_points (d := d) (sq := sqrt) (proper_polar h) (sector_draws (tmax := tmax) (nt := nt) h.outer) h.radial p
  rw [ring_zero h.stretch, ring_last h.radial] at this
  rw [show (∃ c ∈ (sector rmin rmax stretch tmax nr nt d).cells, InHull (corner (sector rmin rmax stretch tmax nr nt d) c) p) ↔ _
    from this]
  unfold OnSector
  simp only [at_sum]

/-- C98 (circles).  Points of the mesh have a radius of at most `rmax` and at least `rmin` times the cosine of half the
angle between rays, and an angle from 0 to `tmax`; all points with these angles and a radius from `rmin` to `rmax` times
this cosine are in the mesh. -/
theorem C98_round (h : Proper rmin rmax stretch tmax nr nt) :
    (∀ p, OnSector rmin rmax tmax nt p → ∃ r t, p = at' r t ∧ 0 ≤ t ∧ t ≤ tmax ∧ rmin * cos (tmax / nt / 2) ≤ r ∧ r ≤ rmax) ∧
    ∀ r t, 0 ≤ t → t ≤ tmax → rmin ≤ r → r ≤ rmax * cos (tmax / nt / 2) → OnSector rmin rmax tmax nt (at' r t) := by
  have hP := proper_polar h
  have hnt : (0 : ℝ) < nt := by exact_mod_cast h.rays
  set δ := tmax / nt with hδ
  have hδ0 : 0 < δ := div_pos h.angle hnt
  have hδpi : δ < π := h.half
  have hstep : ∀ j, ray tmax nt (j + 1) = ray tmax nt j + δ := by
    intro j
    rw [hδ]
    unfold ray
    push_cast
    ring
  have hlast : ray tmax nt nt = tmax := by
    unfold ray
    field_simp
  have hfirst : ray tmax nt 0 = 0 := by simp [ray]
  have hcos : 0 < cos (δ / 2) := cos_pos_of_mem_Ioo ⟨by linarith, by linarith⟩
  have hhalf : cos δ = 2 * cos (δ / 2) ^ 2 - 1 := by rw [← cos_two_mul]; ring_nf
  -- the radius of a point of the chord
  have key : ∀ {a b r : ℝ}, 0 ≤ a → 0 ≤ b → 0 ≤ r → r ^ 2 = a ^ 2 + b ^ 2 + 2 * a * b * cos δ →
      (a + b) * cos (δ / 2) ≤ r ∧ r ≤ a + b := by
    intro a b r ha hb hr e
    have h1 := cos_le_one (δ / 2)
    have hab := mul_nonneg ha hb
    constructor
    · refine abs_le_of_sq_le_sq' ?_ hr |>.2
      rw [e, hhalf]
      nlinarith [mul_nonneg (sq_nonneg (a - b)) (by nlinarith : (0 : ℝ) ≤ 1 - cos (δ / 2) ^ 2)]
    · refine abs_le_of_sq_le_sq' ?_ (by linarith) |>.2
      rw [e]
      nlinarith [mul_nonneg hab (sub_nonneg.2 (cos_le_one δ))]
  have norm : ∀ {a b r t v : ℝ}, (∀ k, a * dir t k + b * dir (t + δ) k = r * dir v k) →
      r ^ 2 = a ^ 2 + b ^ 2 + 2 * a * b * cos δ := by
    intro a b r t v e
    have e0 : a * cos t + b * cos (t + δ) = r * cos v := e 0
    have e1 : a * sin t + b * sin (t + δ) = r * sin v := e 1
    have c1 : cos δ = cos (t + δ) * cos t + sin (t + δ) * sin t := by rw [← cos_sub]; ring_nf
    rw [c1]
    have s1 := sin_sq_add_cos_sq v
    have s2 := sin_sq_add_cos_sq t
    have s3 := sin_sq_add_cos_sq (t + δ)
    have : (r * cos v) ^ 2 + (r * sin v) ^ 2 = (a * cos t + b * cos (t + δ)) ^ 2 + (a * sin t + b * sin (t + δ)) ^ 2 := by
      rw [e0, e1]
    linear_combination this - r ^ 2 * s1 + a ^ 2 * s2 + b ^ 2 * s3
  constructor
  · rintro p ⟨j, hj, a, b, ha, hb, h1, h2, rfl⟩
    have t0 := Sector.mono_le hP.angle (Nat.zero_le j) hj.le
    have t1 := Sector.mono_le hP.angle (Nat.succ_le_of_lt hj) le_rfl
    rw [hfirst] at t0
    rw [hlast] at t1
    have hexist : ∃ r v, 0 ≤ r ∧ ray tmax nt j ≤ v ∧ v ≤ ray tmax nt (j + 1) ∧
        ∀ k, a * dir (ray tmax nt j) k + b * dir (ray tmax nt (j + 1)) k = r * dir v k := by
      rcases ha.eq_or_lt with rfl | ha'
      · exact ⟨b, ray tmax nt (j + 1), hb, (hP.angle j hj).le, le_rfl, fun k => by ring⟩
      · rcases hb.eq_or_lt with rfl | hb'
        · exact ⟨a, ray tmax nt j, ha, le_rfl, (hP.angle j hj).le, fun k => by ring⟩
        · obtain ⟨r, v, hr, hv1, hv2, e⟩ := Sector.between (hP.angle j hj) (hP.half j hj) ha' hb'
          exact ⟨r, v, hr.le, hv1.le, hv2.le, e⟩
    obtain ⟨r, v, hr, hv1, hv2, e⟩ := hexist
    refine ⟨r, v, ?_, by linarith, by linarith, ?_⟩
    · funext k
      have := e k
      fin_cases k <;> simpa [at', dir] using this
    · rw [hstep] at e
      obtain ⟨k1, k2⟩ := key ha hb hr (norm e)
      exact ⟨(mul_le_mul_of_nonneg_right h1 hcos.le).trans k1, k2.trans h2⟩
  · intro r t ht0 ht1 hr1 hr2
    have hr0 : 0 < r := h.inner.trans_le hr1
    obtain ⟨j, hj, j1, j2⟩ := exists_step (R := ray tmax nt) (u := t) h.rays (by rw [hfirst]; exact ht0) (by rw [hlast]; exact ht1)
    rw [hstep] at j2
    have hs : 0 < sin δ := sin_pos_of_pos_of_lt_pi hδ0 hδpi
    set θ := ray tmax nt j with hθ
    have s1 : 0 ≤ sin (θ + δ - t) := sin_nonneg_of_nonneg_of_le_pi (by linarith) (by linarith)
    have s2 : 0 ≤ sin (t - θ) := sin_nonneg_of_nonneg_of_le_pi (by linarith) (by linarith)
    have ha : 0 ≤ r * sin (θ + δ - t) / sin δ := by positivity
    have hb : 0 ≤ r * sin (t - θ) / sin δ := by positivity
    have e : ∀ k, r * sin (θ + δ - t) / sin δ * dir θ k + r * sin (t - θ) / sin δ * dir (θ + δ) k = r * dir t k := by
      have f0 : sin (θ + δ - t) * cos θ + sin (t - θ) * cos (θ + δ) = sin δ * cos t := by
        have a1 : θ + δ - t = θ - t + δ := by ring
        have a2 : t - θ = -(θ - t) := by ring
        have a3 : t = θ - (θ - t) := by ring
        generalize θ - t = w at a1 a2 a3
        rw [a1, a2, a3, sin_neg, sin_add, cos_add, cos_sub]
        ring
      have f1 : sin (θ + δ - t) * sin θ + sin (t - θ) * sin (θ + δ) = sin δ * sin t := by
        have a1 : θ + δ - t = θ - t + δ := by ring
        have a2 : t - θ = -(θ - t) := by ring
        have a3 : t = θ - (θ - t) := by ring
        generalize θ - t = w at a1 a2 a3
        rw [a1, a2, a3, sin_neg, sin_add, sin_add, sin_sub]
        ring
      intro k
      have hs' := hs.ne'
      fin_cases k
      · show _ * cos θ + _ * cos (θ + δ) = r * cos t
        field_simp
        linear_combination f0
      · show _ * sin θ + _ * sin (θ + δ) = r * sin t
        field_simp
        linear_combination f1
    obtain ⟨k1, k2⟩ := key ha hb hr0.le (norm e)
    refine ⟨j, hj, _, _, ha, hb, hr1.trans k2, ?_, ?_⟩
    · exact le_of_mul_le_mul_right (k1.trans hr2) hcos
    · rw [hstep]
      funext k
      have := e k
      fin_cases k <;> simpa [at', dir] using this.symm

/-! ### The solver -/

theorem vertNo_inj {i j i' j' : Nat} (hi : i ≤ nr) (hi' : i' ≤ nr) (h : vertNo nr i j = vertNo nr i' j') : i = i' ∧ j = j' := by
  unfold vertNo at h
  obtain ⟨h1, h2⟩ := rowcol h hi hi'
  exact ⟨h1, h2⟩

theorem ofFacet_redrawn {x y : Nat → ℝ} {i j : Nat} {s : Bool} {c : DSimplex ℝ} (hv : c.verts = cornerNos nr i j (d i j) s) {k : Nat} {e : Edge}
    (he : (edges (d i j) s)[k]? = some e) (v : Nat) :
    OfFacet 2 c k v ↔ v = (ends d nr i j e).1 ∨ v = (ends d nr i j e).2 := by
  rw [← ofFacet_ends (x := x) (y := y) he]
  unfold OfFacet
  rw [hv]
  rfl

/-- The facets of the mesh. -/
theorem facet_cases {c : DSimplex ℝ} (hc : c ∈ (sector rmin rmax stretch tmax nr nt d).cells) {k : Nat} {F : Int}
    (hF : c.facets[k]? = some F) : ∃ i j s e, i < nr ∧ j < nt ∧ c.index = cellNo nr i j s ∧ (edges (d i j) s)[k]? = some e ∧ F = edgeNo nr i j e ∧
      ∀ v, OfFacet 2 c k v ↔ v = (ends d nr i j e).1 ∨ v = (ends d nr i j e).2 := by
  obtain ⟨i, j, s, hi, hj, hx, hv, hf, -⟩ := mem_redraw hc
  rw [hf, List.getElem?_map, Option.map_eq_some_iff] at hF
  obtain ⟨e, he, rfl⟩ := hF
  exact ⟨i, j, s, e, hi, hj, hx, he, rfl, ofFacet_redrawn (x := fun _ => 0) (y := fun _ => 0) hv he⟩

theorem left_facet (hnr : 1 ≤ nr) {j : Nat} (hj : j < nt) : ∃ c ∈ (sector rmin rmax stretch tmax nr nt d).cells, ∃ k, k ≤ 2 ∧
    c.facets[k]? = some (vNo nr 0 j) ∧ ∀ v, OfFacet 2 c k v ↔ v = vertNo nr 0 j ∨ v = vertNo nr 0 (j + 1) := by
  obtain ⟨c, hc, -, hv, hf, -⟩ := redraw_mem (sq := sqrt) (f := fun p => cylinder cos sin tmax (denser rmin rmax (· ^ stretch) (p 0)) (p 1))
    (x := gridPoint rmin rmax nr) (y := gridPoint 0 1 nt) (d := d) (by omega : 0 < nr) hj (owner (d 0 j) .left)
  have he := edges_place (d 0 j) .left
  refine ⟨c, hc, place (d 0 j) .left, by cases d 0 j <;> decide, by rw [hf, List.getElem?_map, he]; rfl, fun v => ?_⟩
  rw [ofFacet_redrawn (x := fun _ => 0) (y := fun _ => 0) hv he]
  rfl

theorem right_facet (hnr : 1 ≤ nr) {j : Nat} (hj : j < nt) : ∃ c ∈ (sector rmin rmax stretch tmax nr nt d).cells, ∃ k, k ≤ 2 ∧
    c.facets[k]? = some (vNo nr nr j) ∧ ∀ v, OfFacet 2 c k v ↔ v = vertNo nr nr j ∨ v = vertNo nr nr (j + 1) := by
  obtain ⟨m, rfl⟩ := Nat.exists_eq_add_of_le' hnr
  obtain ⟨c, hc, -, hv, hf, -⟩ := redraw_mem (sq := sqrt) (f := fun p => cylinder cos sin tmax (denser rmin rmax (· ^ stretch) (p 0)) (p 1))
    (x := gridPoint rmin rmax (m + 1)) (y := gridPoint 0 1 nt) (d := d) (by omega : m < m + 1) hj (owner (d m j) .right)
  have he := edges_place (d m j) .right
  refine ⟨c, hc, place (d m j) .right, by cases d m j <;> decide, by rw [hf, List.getElem?_map, he]; rfl, fun v => ?_⟩
  rw [ofFacet_redrawn (x := fun _ => 0) (y := fun _ => 0) hv he]
  rfl

/-- The field marks. -/
theorem field_marks (hr : rmin < rmax) (hnr : 1 ≤ nr) {fd : Dict} (hfd : IsDict fd) {fa fb : Int} (f1 : ("rmin", fa) ∈ fd) (f2 : ("rmax", fb) ∈ fd)
    (e1 : 0 ≤ fa) (e2 : 0 ≤ fb) (hdx : (1 / 10 ^ 10 : ℝ) ≤ (rmax - rmin) / nr) {pd : Option Dict} {ms : Marks (RFacet ℝ)}
    (e : createCircle rmin rmax nr nt (some fd) pd = .ok ms) :
    ∃ fm, ms.field = some fm ∧ (∀ j < nt, fm (.v 0 j) = fa) ∧ (∀ j < nt, fm (.v nr j) = fb) ∧
      (∀ i j, 0 < i → i < nr → j < nt → fm (.v i j) = 0) ∧ (∀ i j, i < nr → j ≤ nt → fm (.h i j) = 0) ∧ ∀ a b, fm (.inner a b) = 0 := by
  have hT := circle_field_tagged (ny := nt) (ymin := (0 : ℝ)) (ymax := 1) hr hnr hdx f1 f2
  have hne : ∀ i, gridPoint rmin rmax nr i < gridPoint rmin rmax nr (i + 1) := gridPoint_lt hr hnr
  have h0 : gridPoint rmin rmax nr 0 = rmin := gridPoint_zero _ _ _
  have hn : gridPoint rmin rmax nr nr = rmax := gridPoint_last _ _ hnr
  unfold createCircle at e
  simp only [ifDict, bind, Except.bind, pure, Except.pure] at e
  rw [markTwo_ok _ hfd f1 f2 e1 e2] at e
  have hfield : ms.field = some (fun f => if inSub (xBoundary rmax) (rectFacet rmin rmax 0 1 nr nt f) then fb
        else if inSub (xBoundary rmin) (rectFacet rmin rmax 0 1 nr nt f) then fa else 0) := by
    cases pd with
    | none => simp only at e; cases e; rfl
    | some pd =>
      simp only at e
      split at e
      · cases e
      · cases e; rfl
  refine ⟨_, hfield, ?_, ?_, ?_, ?_, ?_⟩
  · intro j hj
    exact mem_unique hfd (hT.1 (.v 0 j) ⟨by omega, hj⟩ (atX "rmin" rmin) (by simp) ((liesOn_x _ _ _ _ _).2 ⟨by simp, h0, h0⟩)) f1
  · intro j hj
    exact mem_unique hfd (hT.1 (.v nr j) ⟨le_rfl, hj⟩ (atX "rmax" rmax) (by simp) ((liesOn_x _ _ _ _ _).2 ⟨by simp, hn, hn⟩)) f2
  · intro i j hi hi' hj
    refine hT.2 (.v i j) ⟨hi'.le, hj⟩ ?_
    intro s hs hl
    simp only [List.mem_cons, List.not_mem_nil, or_false] at hs
    rcases hs with rfl | rfl <;> have := ((liesOn_x _ _ _ _ _).1 hl).1 <;> simp at this <;> omega
  · intro i j hi hj
    refine hT.2 (.h i j) ⟨hi, hj⟩ ?_
    intro s hs hl
    simp only [List.mem_cons, List.not_mem_nil, or_false] at hs
    rcases hs with rfl | rfl <;> have := ((liesOn_x _ _ _ _ _).1 hl).2 <;> have := hne i <;> simp only at * <;> linarith
  · intro a b
    refine hT.2 (.inner a b) trivial ?_
    intro s hs hl
    simp only [List.mem_cons, List.not_mem_nil, or_false] at hs
    rcases hs with rfl | rfl <;> have := ((liesOn_x _ _ _ _ _).1 hl).1 <;> cases this

/-- The vertices on the inner and on the outer circle. -/
theorem on_circles (hnr : 1 ≤ nr) (hnt : 1 ≤ nt) {fm : RFacet ℝ → Int} {fa fb : Int} (ha : 0 < fa) (hb : 0 < fb) (hne : fa ≠ fb)
    (m1 : ∀ j < nt, fm (.v 0 j) = fa) (m2 : ∀ j < nt, fm (.v nr j) = fb) (m3 : ∀ i j, 0 < i → i < nr → j < nt → fm (.v i j) = 0)
    (m4 : ∀ i j, i < nr → j ≤ nt → fm (.h i j) = 0) (m5 : ∀ a b, fm (.inner a b) = 0) (n : Nat) :
    (Spec.OnSide (sector rmin rmax stretch tmax nr nt d) (markerOf (gridPoint rmin rmax nr) (gridPoint 0 1 nt) d nr nt fm) fa n ↔
      ∃ j ≤ nt, n = vertNo nr 0 j) ∧
    (Spec.OnSide (sector rmin rmax stretch tmax nr nt d) (markerOf (gridPoint rmin rmax nr) (gridPoint 0 1 nt) d nr nt fm) fb n ↔
      ∃ j ≤ nt, n = vertNo nr nr j) := by
  have mv : ∀ i j, i ≤ nr → j < nt → markerOf (gridPoint rmin rmax nr) (gridPoint 0 1 nt) d nr nt fm (vNo nr i j) = fm (.v i j) := by
    intro i j hi hj
    unfold markerOf
    rw [facetOf_v hi hj]
    rfl
  have mh : ∀ i j, i < nr → j ≤ nt → markerOf (gridPoint rmin rmax nr) (gridPoint 0 1 nt) d nr nt fm (hNo nr i j) = 0 := by
    intro i j hi hj
    unfold markerOf
    rw [facetOf_h hi hj]
    exact m4 i j hi hj
  have md : ∀ i j, i < nr → j < nt → markerOf (gridPoint rmin rmax nr) (gridPoint 0 1 nt) d nr nt fm (dNo nr i j) = 0 := by
    intro i j hi hj
    unfold markerOf
    obtain ⟨a, b, e⟩ := facetOf_d (x := gridPoint rmin rmax nr) (y := gridPoint (0 : ℝ) 1 nt) (d := d) hi hj
    rw [e]
    exact m5 a b
  have which : ∀ {t : Int}, 0 < t → Spec.OnSide (sector rmin rmax stretch tmax nr nt d)
      (markerOf (gridPoint rmin rmax nr) (gridPoint 0 1 nt) d nr nt fm) t n →
      ∃ i ≤ nr, ∃ j < nt, fm (.v i j) = t ∧ (n = vertNo nr i j ∨ n = vertNo nr i (j + 1)) := by
    rintro t ht ⟨c, hc, k, F, -, hF, hm, ho⟩
    obtain ⟨i, j, s, e, hi, hj, -, -, rfl, hof⟩ := facet_cases hc hF
    rw [hof] at ho
    cases e
    · exact ⟨i, hi.le, j, hj, (mv i j hi.le hj).symm.trans hm, ho⟩
    · exact ⟨i + 1, hi, j, hj, (mv (i + 1) j hi hj).symm.trans hm, ho⟩
    · rw [show edgeNo nr i j .bottom = hNo nr i j from rfl, mh i j hi hj.le] at hm; omega
    · rw [show edgeNo nr i j .top = hNo nr i (j + 1) from rfl, mh i (j + 1) hi hj] at hm; omega
    · rw [show edgeNo nr i j .diag = dNo nr i j from rfl, md i j hi hj] at hm; omega
  constructor
  · constructor
    · intro h
      obtain ⟨i, hi, j, hj, hf, hv⟩ := which ha h
      have hi0 : i = 0 := by
        by_contra h0
        by_cases hn : i = nr
        · subst hn; rw [m2 j hj] at hf; exact hne hf.symm
        · rw [m3 i j (by omega) (by omega) hj] at hf; omega
      subst hi0
      rcases hv with h | h
      · exact ⟨j, hj.le, h⟩
      · exact ⟨j + 1, hj, h⟩
    · rintro ⟨j, hj, rfl⟩
      by_cases hjn : j < nt
      · obtain ⟨c, hc, k, hk, hF, ho⟩ := left_facet (rmin := rmin) (rmax := rmax) (stretch := stretch) (tmax := tmax) (d := d) hnr hjn
        exact ⟨c, hc, k, _, hk, hF, by rw [mv 0 j (by omega) hjn, m1 j hjn], (ho _).2 (.inl rfl)⟩
      · obtain ⟨m, rfl⟩ := Nat.exists_eq_add_of_le' (by omega : 1 ≤ j)
        obtain ⟨c, hc, k, hk, hF, ho⟩ := left_facet (rmin := rmin) (rmax := rmax) (stretch := stretch) (tmax := tmax) (d := d) hnr (by omega : m < nt)
        exact ⟨c, hc, k, _, hk, hF, by rw [mv 0 m (by omega) (by omega), m1 m (by omega)], (ho _).2 (.inr rfl)⟩
  · constructor
    · intro h
      obtain ⟨i, hi, j, hj, hf, hv⟩ := which hb h
      have hi0 : i = nr := by
        by_contra hn
        by_cases h0 : i = 0
        · subst h0; rw [m1 j hj] at hf; exact hne hf
        · rw [m3 i j (by omega) (by omega) hj] at hf; omega
      subst hi0
      rcases hv with h | h
      · exact ⟨j, hj.le, h⟩
      · exact ⟨j + 1, hj, h⟩
    · rintro ⟨j, hj, rfl⟩
      by_cases hjn : j < nt
      · obtain ⟨c, hc, k, hk, hF, ho⟩ := right_facet (rmin := rmin) (rmax := rmax) (stretch := stretch) (tmax := tmax) (d := d) hnr hjn
        exact ⟨c, hc, k, _, hk, hF, by rw [mv nr j le_rfl hjn, m2 j hjn], (ho _).2 (.inl rfl)⟩
      · obtain ⟨m, rfl⟩ := Nat.exists_eq_add_of_le' (by omega : 1 ≤ j)
        obtain ⟨c, hc, k, hk, hF, ho⟩ := right_facet (rmin := rmin) (rmax := rmax) (stretch := stretch) (tmax := tmax) (d := d) hnr (by omega : m < nt)
        exact ⟨c, hc, k, _, hk, hF, by rw [mv nr m le_rfl (by omega), m2 m (by omega)], (ho _).2 (.inr rfl)⟩

/-- Every vertex is joined to the inner circle. -/
theorem sector_linked (hnt : 1 ≤ nt) {S : Nat → Prop} (hS : ∀ j ≤ nt, S (vertNo nr 0 j)) :
    ∀ n ≤ (nr + 1) * (nt + 1) - 1, Linked (sector rmin rmax stretch tmax nr nt d) S n := by
  have key : ∀ i ≤ nr, ∀ j ≤ nt, Linked (sector rmin rmax stretch tmax nr nt d) S (vertNo nr i j) := by
    intro i
    induction i with
    | zero => intro _ j hj; exact .base (hS j hj)
    | succ i ih =>
      intro hi j hj
      have step : ∀ j', j' < nt → ∀ s : Bool, vertNo nr i j ∈ cornerNos nr i j' (d i j') s → vertNo nr (i + 1) j ∈ cornerNos nr i j' (d i j') s →
          Linked (sector rmin rmax stretch tmax nr nt d) S (vertNo nr (i + 1) j) := by
        intro j' hj' s h1 h2
        obtain ⟨c, hc, -, hv, -, -⟩ := redraw_mem (sq := sqrt)
          (f := fun p => cylinder cos sin tmax (denser rmin rmax (· ^ stretch) (p 0)) (p 1))
          (x := gridPoint rmin rmax nr) (y := gridPoint 0 1 nt) (d := d) (by omega : i < nr) hj' s
        exact .step hc (hv ▸ h1) (hv ▸ h2) (ih (by omega) j hj)
      by_cases hjn : j < nt
      · refine step j hjn false ?_ ?_ <;> (cases d i j <;> simp [cornerNos])
      · obtain ⟨m, rfl⟩ := Nat.exists_eq_add_of_le' (by omega : 1 ≤ j)
        refine step m (by omega) true ?_ ?_ <;> (cases d i m <;> simp [cornerNos])
  intro n hn
  have hlt : n < (nr + 1) * (nt + 1) := by
    have : 0 < (nr + 1) * (nt + 1) := by positivity
    omega
  have h1 : n % (nr + 1) ≤ nr := Nat.lt_succ_iff.1 (Nat.mod_lt _ (by omega))
  have h2 : n / (nr + 1) ≤ nt := Nat.lt_succ_iff.1 (Nat.div_lt_of_lt_mul hlt)
  have e : vertNo nr (n % (nr + 1)) (n / (nr + 1)) = n := by
    unfold vertNo
    rw [Nat.mul_comm]
    exact Nat.div_add_mod _ _
  rw [← e]
  exact key _ h1 _ h2

/-- The triangles of a triangulation are not flat. -/
theorem triArea_pos {D : DMesh ℝ 2} (hD : Triangulation (by decide : 2 ≤ 3) D) {c : DSimplex ℝ} (hc : c ∈ D.cells) :
    0 < triArea (corner D c) := by
  have hperp := hD.perp c hc 0 1 2 (by unfold onFacet; rw [if_neg (by decide)]; decide) (by unfold onFacet; rw [if_neg (by decide)]; decide)
  have hout := hD.outward c hc 0 1 0 (by unfold onFacet; rw [if_neg (by decide)]; decide) (by unfold onFacet; rw [if_neg (by decide)]; decide)
  have hout2 := hD.outward c hc 2 1 2 (by unfold onFacet; rw [if_neg (by decide)]; decide) (by unfold onFacet; rw [if_neg (by decide)]; decide)
  unfold triArea
  have : (corner D c 1 0 - corner D c 0 0) * (corner D c 2 1 - corner D c 0 1) -
      (corner D c 1 1 - corner D c 0 1) * (corner D c 2 0 - corner D c 0 0) ≠ 0 := by
    intro h0
    set n := cutNormal (by decide : 2 ≤ 3) (c.normal (0 : Fin 3))
    rw [dotP] at hperp hout hout2
    simp only [Pi.sub_apply] at hperp hout hout2
    generalize corner D c 0 = p0 at *
    generalize corner D c 1 = p1 at *
    generalize corner D c 2 = p2 at *
    have hx : (n 0 * (p0 0 - p1 0) + n 1 * (p0 1 - p1 1)) * (p2 0 - p1 0) = 0 := by
      linear_combination (p0 0 - p1 0) * hperp + n 1 * h0
    have hy : (n 0 * (p0 0 - p1 0) + n 1 * (p0 1 - p1 1)) * (p2 1 - p1 1) = 0 := by
      linear_combination (p0 1 - p1 1) * hperp - n 0 * h0
    have ex := (mul_eq_zero.1 hx).resolve_left hout.ne
    have ey := (mul_eq_zero.1 hy).resolve_left hout.ne
    rw [ex, ey] at hout2
    simp at hout2
  have := abs_pos.2 this
  positivity

/-- C98 (potential).  If the boundaries `rmin` and `rmax` are named in the field dictionary with different positive tags
and the radial cells are not smaller than the tolerance: the Poisson solver for the mesh and its marks has, for all charges,
just one solution; it is the potential of electrostatics (Gauss's law for every basis function), with the
first number at all vertices on the inner and the second at all on the outer circle. -/
theorem C98_solver (h : Proper rmin rmax stretch tmax nr nt) {fd : Dict} (hfd : IsDict fd) {fa fb : Int} (f1 : ("rmin", fa) ∈ fd)
    (f2 : ("rmax", fb) ∈ fd) (e1 : 0 < fa) (e2 : 0 < fb) (hne : fa ≠ fb) (hdx : (1 / 10 ^ 10 : ℝ) ≤ (rmax - rmin) / nr)
    {pd : Option Dict} {ms : Marks (RFacet ℝ)} (e : createCircle rmin rmax nr nt (some fd) pd = .ok ms) {eps v0 vN : ℝ} (he : 0 < eps)
    {bc : List (String × Int × Poisson.Val ℝ)} (b1 : bc.lookup "rmin" = some (fa, .num v0)) (b2 : bc.lookup "rmax" = some (fb, .num vN))
    (d : Nat → Nat → Bool) {D : DMesh ℝ 2} (hD : D = sector rmin rmax stretch tmax nr nt d) {N : Nat} (hN : N = (nr + 1) * (nt + 1) - 1) :
    ∃ fm marker grad s, ms.field = some fm ∧ marker = markerOf (gridPoint rmin rmax nr) (gridPoint 0 1 nt) d nr nt fm ∧
      Meshed D ⟨grad, fun c => triArea (corner D c)⟩ N ∧
      Poisson.createOn eps D ⟨grad, fun c => triArea (corner D c)⟩ N marker bc = .ok s ∧
      ∀ Q : List ℝ, Q.length = N + 1 →
        (∃! U, Solves N s.A (Poisson.applyVecOn (Poisson.touches D marker) s.bcs Q) U) ∧
        ∀ U, Solves N s.A (Poisson.applyVecOn (Poisson.touches D marker) s.bcs Q) U →
          (∀ j ≤ nt, U.getD (vertNo nr 0 j) 0 = v0 ∧ U.getD (vertNo nr nr j) 0 = vN) ∧
          ∃ F, Poisson.negEOn D ⟨grad, fun c => triArea (corner D c)⟩ U = D.cells.map F ∧
            Electrostatics eps D (fun c => triArea (corner D c)) N marker fa fb v0 vN (fun i => Q.getD i 0) (fun i => U.getD i 0) F := by
  subst hD hN
  obtain ⟨fm, hfm, m1, m2, m3, m4, m5⟩ := field_marks h.outer h.radial hfd f1 f2 e1.le e2.le hdx e
  have hT := C98_sector h d
  have hside := on_circles (rmin := rmin) (rmax := rmax) (stretch := stretch) (tmax := tmax) (d := d) h.radial h.rays e1 e2 hne m1 m2 m3 m4 m5
  obtain ⟨grad, hm⟩ := C94_shape hT (N := (nr + 1) * (nt + 1) - 1) (fun c hc v hv => by
    obtain ⟨i, j, s, hi, hj, -, hv', -, -⟩ := mem_redraw hc
    rw [hv'] at hv
    have p1 := vert_le (n := nt) (nr := nr) hi.le hj.le
    have p2 := vert_le (n := nt) (nr := nr) (i := i + 1) hi hj.le
    have p3 := vert_le (n := nt) (nr := nr) (j := j + 1) hi.le hj
    have p4 := vert_le (n := nt) (nr := nr) (i := i + 1) (j := j + 1) hi hj
    generalize d i j = b at hv
    cases b <;> cases s <;> simp only [cornerNos, List.mem_cons, List.not_mem_nil, or_false] at hv <;>
      (rcases hv with rfl | rfl | rfl <;> assumption)) (vol := fun c => triArea (corner (sector rmin rmax stretch tmax nr nt d) c))
    (fun c hc => triArea_pos hT hc)
  obtain ⟨s, hs, hall⟩ := C94_potential he hm (marker := markerOf (gridPoint rmin rmax nr) (gridPoint 0 1 nt) d nr nt fm)
    (sector_linked h.rays (fun j hj => .inl ((hside _).1.2 ⟨j, hj, rfl⟩))) b1 b2
  refine ⟨fm, _, grad, s, hfm, rfl, hm, hs, fun Q hQ => ⟨(hall Q hQ).1, fun U hU => ?_⟩⟩
  obtain ⟨F, hF, hE⟩ := (hall Q hQ).2 U hU
  refine ⟨fun j hj => ⟨?_, ?_⟩, F, hF, hE⟩
  · refine hE.sides.low _ ((hside _).1.2 ⟨j, hj, rfl⟩) ?_
    rw [(hside _).2]
    rintro ⟨j', -, h'⟩
    have := (vertNo_inj (Nat.zero_le _) le_rfl h').1
    have := h.radial
    omega
  · exact hE.sides.high _ ((hside _).2.2 ⟨j, hj, rfl⟩)

/-! ### Particles -/

/-- The names of the sides of the sector. -/
def Spec.Sector.sideName : Rect.Side → String
  | .left => "rmin"
  | .right => "rmax"
  | .bottom => "thmin"
  | .top => "thmax"

/-- The vertices of the sides of the sector. -/
def Spec.Sector.OnSideV (nr nt : Nat) (v : Nat) : Rect.Side → Prop
  | .left => ∃ j ≤ nt, v = vertNo nr 0 j
  | .right => ∃ j ≤ nt, v = vertNo nr nr j
  | .bottom => ∃ i ≤ nr, v = vertNo nr i 0
  | .top => ∃ i ≤ nr, v = vertNo nr i nt

theorem side_of_edge {i j : Nat} {e : Edge} (hi : i < nr) (hj : j < nt) (sd : Rect.Side) :
    (OnSideV nr nt (ends d nr i j e).1 sd ∧ OnSideV nr nt (ends d nr i j e).2 sd) ↔ Rect.OnSide nr nt (edgeNo nr i j e) sd := by
  constructor
  · rintro ⟨h1, h2⟩
    have bad : ∀ {a b a' b' : Nat}, a ≤ nr → a' ≤ nr → vertNo nr a b = vertNo nr a' b' → a = a' ∧ b = b' := fun h h' => vertNo_inj h h'
    have diag : e = .diag → False := by
      rintro rfl
      cases sd <;> simp only [OnSideV, ends] at h1 h2 <;> split at h1 <;> rename_i hd <;> simp only [hd, if_true, if_false, Bool.false_eq_true] at h2 <;>
        obtain ⟨a, ha, e1⟩ := h1 <;> obtain ⟨b, hb, e2⟩ := h2 <;> have q1 := bad (by omega) (by omega) e1 <;> have q2 := bad (by omega) (by omega) e2 <;> omega
    cases e
    case diag => exact (diag rfl).elim
    all_goals
      cases sd <;> simp only [OnSideV, ends] at h1 h2 <;>
        obtain ⟨a, ha, e1⟩ := h1 <;> obtain ⟨b, hb, e2⟩ := h2 <;> have q1 := bad (by omega) (by omega) e1 <;> have q2 := bad (by omega) (by omega) e2 <;>
        first
        | omega
        | (obtain ⟨rfl, rfl⟩ := q1; exact ⟨_, by first | exact hi | exact hj, rfl⟩)
  · intro h
    cases sd <;> obtain ⟨a, ha, hF⟩ := h
    · rw [ends_same (d := d) (e' := .left) hi (by omega : 0 < nr) hF]
      exact ⟨⟨a, ha.le, rfl⟩, a + 1, ha, rfl⟩
    · obtain ⟨m, rfl⟩ := Nat.exists_eq_add_of_le' (by omega : 1 ≤ nr)
      rw [ends_same (d := d) (e' := .right) hi (by omega : m < m + 1) hF]
      exact ⟨⟨a, ha.le, rfl⟩, a + 1, ha, rfl⟩
    · rw [ends_same (d := d) (e' := .bottom) hi ha hF]
      exact ⟨⟨a, ha.le, rfl⟩, a + 1, ha, rfl⟩
    · obtain ⟨m, rfl⟩ := Nat.exists_eq_add_of_le' (by omega : 1 ≤ nt)
      rw [ends_same (d := d) (j' := m) (e' := .top) hi ha hF]
      exact ⟨⟨a, ha.le, rfl⟩, a + 1, ha, rfl⟩

/-- C98 (particles).  If the four sides are named in the particle dictionary with positive tags, and neither the radial
extent nor the cells in angle are smaller than the tolerance: the mesh for particles is made; it covers the sector; its
facets have the tag of the side if both vertices are on a side, 0 otherwise; and the mover, with
callbacks that delete or turn back at the sides, keeps every particle in the triangle with the number in its record, or deletes
it, or stops because too many facets are crossed. -/
theorem C98_mover {τ ρ : Type} (h : Proper rmin rmax stretch tmax nr nt) {pd : Dict} (hpd : IsDict pd) {tag : Rect.Side → Int}
    (htag : ∀ sd, (sideName sd, tag sd) ∈ pd) (hpos : ∀ sd, 0 < tag sd) (hw : (1 / 10 ^ 10 : ℝ) ≤ rmax - rmin)
    (hdt : (1 / 10 ^ 10 : ℝ) ≤ 1 / nt) {fo : Option Dict} {ms : Marks (RFacet ℝ)}
    (e : createCircle rmin rmax nr nt fo (some pd) = .ok ms) (d : Nat → Nat → Bool) {D : DMesh ℝ 2}
    (hD : D = sector rmin rmax stretch tmax nr nt d) (junk : Int) {p : Nat} (hp : 2 ≤ p) :
    ∃ pm M, ms.particle = some pm ∧
      buildMesh (by decide) D junk (markerOf (gridPoint rmin rmax nr) (gridPoint 0 1 nt) d nr nt pm) = .ok M ∧ M.Conforming ∧
      (∀ q, M.Points q ↔ OnSector rmin rmax tmax nt q) ∧
      (∀ c ∈ D.cells, ∀ k F, c.facets[k]? = some F →
        (∀ sd, (∀ v, OfFacet 2 c k v → OnSideV nr nt v sd) → M.marker F = tag sd) ∧
        ((∀ sd, ¬ ∀ v, OfFacet 2 c k v → OnSideV nr nt v sd) → M.marker F = 0)) ∧
      ∀ {v : Variant}, v.datum = .ok () →
        ∀ {bc : Int → τ → BCall ℝ 2 p ρ → Except Err (τ × Part ℝ p ρ)}, GoodBC hp M (v.sharesDx = true) bc → KeepsCell bc →
        ∀ (n : Nat) (time dt qmdt : ℝ) (accel : Bool) (E : Part ℝ p ρ → Option (Vec ℝ p)) (st : τ × Vec ℝ p)
          (q : Part ℝ p ρ), (∃ c ∈ D.cells, c.index = q.cell ∧ InHull (corner D c) (proj hp q.x)) →
        (∃ st' q' evs, moveCharged hp M v bc n time dt qmdt accel E st q = .ok (st', q', evs) ∧
          ((∃ c ∈ D.cells, c.index = q'.cell ∧ InHull (corner D c) (proj hp q'.x)) ∨ (q'.del = true ∧ q'.cell = -1))) ∨
        moveCharged hp M v bc n time dt qmdt accel E st q = .error (v.err .tooMany) := by
  subst hD
  have hT := C98_sector h d
  obtain ⟨pm, hpm, hv⟩ : ∃ pm, ms.particle = some pm ∧ ∀ f, IsRect nr nt f →
      pm f = rectTag nr nt (tag .left) (tag .right) (tag .bottom) (tag .top) f := by
    unfold createCircle at e
    simp only [bind, Except.bind, pure, Except.pure] at e
    split at e
    · cases e
    · have h1 : ("rmin", tag .left) ∈ pd := htag .left
      have h2 : ("rmax", tag .right) ∈ pd := htag .right
      have h3 : ("thmin", tag .bottom) ∈ pd := htag .bottom
      have h4 : ("thmax", tag .top) ∈ pd := htag .top
      rw [markFour_ok _ hpd h1 h2 h3 h4 (hpos _).le (hpos _).le (hpos _).le (hpos _).le] at e
      cases e
      exact ⟨_, rfl, fun f hf => rect_val h.outer zero_lt_one h.radial h.rays hw (by rw [sub_zero]; exact hdt) _ _ _ _ f hf⟩
  set marker := markerOf (gridPoint rmin rmax nr) (gridPoint 0 1 nt) d nr nt pm with hmk
  have mside : ∀ {F sd}, Rect.OnSide nr nt F sd → marker F = tag sd := fun h' => markerOf_side h.radial h.rays hv h'
  have mother : ∀ {F}, (∀ sd, ¬ Rect.OnSide nr nt F sd) → marker F = 0 := fun h' => markerOf_other hv h'
  have hb : ∀ c ∈ (sector rmin rmax stretch tmax nr nt d).cells, ∀ F ∈ c.facets,
      (∀ c' ∈ (sector rmin rmax stretch tmax nr nt d).cells, F ∈ c'.facets → c'.index = c.index) → marker F ≠ 0 := by
    intro c hc F hF hone
    obtain ⟨k, hk⟩ := List.getElem?_of_mem hF
    obtain ⟨i, j, s, e, hi, hj, hx, he, rfl, -⟩ := facet_cases hc hk
    have hac : across d nr nt i j s e = -1 := by
      by_contra hac
      obtain ⟨hne, i', j', s', e', hi', hj', ha, he', hee⟩ := across_edge hi hj (List.mem_of_getElem? he) hac
      obtain ⟨c', hc', hx', -, hf', -⟩ := redraw_mem (sq := sqrt)
        (f := fun p => cylinder cos sin tmax (denser rmin rmax (· ^ stretch) (p 0)) (p 1))
        (x := gridPoint rmin rmax nr) (y := gridPoint 0 1 nt) (d := d) hi' hj' s'
      have := hone c' hc' (by rw [hf']; exact List.mem_map.2 ⟨e', he', hee⟩)
      rw [hx', hx, ← ha] at this
      exact hne this
    obtain ⟨sd, hsd, -⟩ := across_none (x := fun _ => (0 : ℝ)) (y := fun _ => 0) hi hj hac
    rw [mside hsd]
    exact (hpos sd).ne'
  obtain ⟨M, eM, hmark, hconf⟩ := C88_conforming hT junk hb
  obtain ⟨M1, eM1, hpts, -⟩ := C88_points hT junk marker
  obtain ⟨M2, eM2, hmove⟩ := C88_mover (τ := τ) (ρ := ρ) hT junk hb hp
  rw [eM] at eM1 eM2
  cases eM1
  cases eM2
  refine ⟨pm, M, hpm, eM, hconf, fun q => (hpts q).trans (C98_points h d q), ?_, hmove⟩
  intro c hc k F hF
  obtain ⟨i, j, s, e, hi, hj, hx, he, rfl, hof⟩ := facet_cases hc hF
  have hall : ∀ sd, (∀ v, OfFacet 2 c k v → OnSideV nr nt v sd) ↔ Rect.OnSide nr nt (edgeNo nr i j e) sd := by
    intro sd
    rw [← side_of_edge (d := d) hi hj]
    constructor
    · intro h'
      exact ⟨h' _ ((hof _).2 (.inl rfl)), h' _ ((hof _).2 (.inr rfl))⟩
    · rintro ⟨h1, h2⟩ v hv
      rcases (hof v).1 hv with rfl | rfl
      · exact h1
      · exact h2
  rw [hmark]
  exact ⟨fun sd hs => mside ((hall sd).1 hs), fun hno => mother fun sd hs => hno sd ((hall sd).2 hs)⟩

/-! ### Where it fails -/

theorem flat_not {D : DMesh ℝ 2} {c : DSimplex ℝ} (hc : c ∈ D.cells) (h0 : triArea (corner D c) = 0) :
    ¬ Triangulation (by decide : 2 ≤ 3) D := fun hD => (triArea_pos hD hc).ne' h0

/-- C98 is false with the centre: for `rmin = 0`, all vertices on the inner circle are at the origin, and a triangle at the
centre of each sector is flat.  There is no check. -/
theorem C98_false_centre (hr : 0 < rmax) (hs : 0 < stretch) (hnr : 1 ≤ nr) (hnt : 1 ≤ nt) (tmax : ℝ) (d : Nat → Nat → Bool) :
    ¬ Triangulation (by decide : 2 ≤ 3) (sector 0 rmax stretch tmax nr nt d) := by
  obtain ⟨c, hc, -, -, -, e⟩ := redraw_mem (sq := sqrt) (f := fun p => cylinder cos sin tmax (denser 0 rmax (· ^ stretch) (p 0)) (p 1))
    (x := gridPoint 0 rmax nr) (y := gridPoint 0 1 nt) (d := d) (by omega : 0 < nr) (by omega : 0 < nt) (d 0 0)
  refine flat_not hc ?_
  have hdraw := fun k => drawn (d := d) (s := d 0 0) (sector_draws (stretch := stretch) (tmax := tmax) (nr := nr) (nt := nt) hr)
    (by omega : 0 < nr) (by omega : 0 < nt) k
  have hz : ring 0 rmax stretch nr 0 = 0 := ring_zero hs
  unfold triArea
  rw [show corner (sector 0 rmax stretch tmax nr nt d) c = _ from e]
  dsimp only at hdraw ⊢
  rw [hdraw 0, hdraw 1, hdraw 2]
  generalize d 0 0 = b
  cases b <;> simp only [cornerAt, Matrix.cons_val_zero, Matrix.cons_val_one, Matrix.cons_val, polar, hz] <;> simp

/-- C98 is false with too few rays: if the angle between neighbours is a multiple of π (a half circle with `nt = 1`, a full
circle with `nt = 1` or `2`), all triangles between them are flat.  There is no check. -/
theorem C98_false_coarse (hr : rmin < rmax) (hnr : 1 ≤ nr) (hnt : 1 ≤ nt) (ht : sin (tmax / nt) = 0) (d : Nat → Nat → Bool) :
    ¬ Triangulation (by decide : 2 ≤ 3) (sector rmin rmax stretch tmax nr nt d) := by
  obtain ⟨c, hc, -, -, -, e⟩ := redraw_mem (sq := sqrt) (f := fun p => cylinder cos sin tmax (denser rmin rmax (· ^ stretch) (p 0)) (p 1))
    (x := gridPoint rmin rmax nr) (y := gridPoint 0 1 nt) (d := d) (by omega : 0 < nr) (by omega : 0 < nt) true
  refine flat_not hc ?_
  have hdraw := fun k => drawn (d := d) (s := true) (sector_draws (stretch := stretch) (tmax := tmax) (nr := nr) (nt := nt) hr)
    (by omega : 0 < nr) (by omega : 0 < nt) k
  have t0 : ray tmax nt 0 = 0 := by simp [ray]
  have t1 : sin (ray tmax nt 1) = 0 := by rw [← ht]; simp [ray]
  unfold triArea
  rw [show corner (sector rmin rmax stretch tmax nr nt d) c = _ from e]
  dsimp only at hdraw ⊢
  rw [hdraw 0, hdraw 1, hdraw 2]
  generalize d 0 0 = b
  cases b <;> simp [cornerAt, polar, dir, t0, t1]

end

/-! ### A case -/

/-- The quarter ring of the tests (tests/unit/test_FieldSolve.py:240-314). -/
theorem quarter_proper : Proper 1 5 1.3 (π / 2) 10 20 := by
  have := pi_pos
  refine ⟨by norm_num, by norm_num, by norm_num, by linarith, by linarith, by norm_num, by norm_num, ?_⟩
  push_cast
  linarith

example : OnSector 1 5 (π / 2) 20 ![2, 0] := by
  refine ⟨0, by norm_num, 2, 0, by norm_num, le_rfl, by norm_num, by norm_num, ?_⟩
  funext k
  fin_cases k <;> simp [at', ray]

/-- Its mesh is made, with the tags 1 and 2 for fields and 1 to 4 for particles. -/
theorem quarter_made : ∃ ms, createCircle (1 : ℝ) 5 10 20 (some [("rmin", 1), ("rmax", 2)])
    (some [("rmin", 1), ("rmax", 2), ("thmin", 3), ("thmax", 4)]) = .ok ms := by
  obtain ⟨fm, pm, e, -⟩ := C82_circle (rmin := (1 : ℝ)) (rmax := 5) (by norm_num) (nr := 10) (nt := 20) (by norm_num) (by norm_num)
    (fd := [("rmin", 1), ("rmax", 2)]) (pd := [("rmin", 1), ("rmax", 2), ("thmin", 3), ("thmax", 4)])
    (by unfold IsDict; decide) (by unfold IsDict; decide) (fa := 1) (fb := 2) (t1 := 1) (t2 := 2) (t3 := 3) (t4 := 4)
    (by simp) (by simp) (by decide) (by decide) (by simp) (by simp) (by simp) (by simp) (by decide) (by decide) (by decide) (by decide)
  exact ⟨_, e⟩

example (d : Nat → Nat → Bool) : ∃ ms fm grad s, createCircle (1 : ℝ) 5 10 20 (some [("rmin", 1), ("rmax", 2)])
      (some [("rmin", 1), ("rmax", 2), ("thmin", 3), ("thmax", 4)]) = .ok ms ∧ ms.field = some fm ∧
    Poisson.createOn 1 (sector 1 5 1.3 (π / 2) 10 20 d) ⟨grad, fun c => triArea (corner (sector 1 5 1.3 (π / 2) 10 20 d) c)⟩ 230
      (markerOf (gridPoint 1 5 10) (gridPoint 0 1 20) d 10 20 fm) [("rmin", 1, .num 0), ("rmax", 2, .num (-1.5))] = .ok s := by
  obtain ⟨ms, e⟩ := quarter_made
  obtain ⟨fm, marker, grad, s, h1, h2, -, h3, -⟩ := C98_solver quarter_proper (by unfold IsDict; decide) (fa := 1) (fb := 2) (by simp) (by simp)
    (by decide) (by decide) (by decide) (by norm_num) e (eps := 1) (v0 := 0) (vN := -1.5) one_pos
    (bc := [("rmin", 1, .num 0), ("rmax", 2, .num (-1.5))]) rfl rfl d rfl rfl
  exact ⟨ms, fm, grad, s, e, h1, h2 ▸ h3⟩

example : ∃ ms : Marks (RFacet ℝ), createCircle (1 : ℝ) 5 10 20 (some [("rmin", 1), ("rmax", 2)])
      (some [("rmin", 1), ("rmax", 2), ("thmin", 3), ("thmax", 4)]) = .ok ms ∧
    ∀ d junk, ∃ pm M, ms.particle = some pm ∧ buildMesh (by decide) (sector 1 5 1.3 (π / 2) 10 20 d) junk
      (markerOf (gridPoint 1 5 10) (gridPoint 0 1 20) d 10 20 pm) = .ok M ∧ M.Conforming := by
  obtain ⟨ms, e⟩ := quarter_made
  refine ⟨ms, e, fun d junk => ?_⟩
  obtain ⟨pm, M, h1, h2, h3, -⟩ := C98_mover (τ := Unit) (ρ := Unit) quarter_proper (by unfold IsDict; decide)
    (tag := fun sd => match sd with | .left => 1 | .right => 2 | .bottom => 3 | .top => 4)
    (by intro sd; cases sd <;> simp [sideName]) (by intro sd; cases sd <;> decide) (by norm_num) (by norm_num) e d rfl junk (le_refl 2)
  exact ⟨pm, M, h1, h2, h3⟩

end Dt
