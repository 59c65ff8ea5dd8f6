import Verif.Spec.Box
import Verif.Lemmas.BoxGrid
import Verif.Props.Plasma
import Verif.Props.NamedWalls
import Verif.Props.MeshMark
import Mathlib.Analysis.SpecialFunctions.Sqrt

/-!
# The mesh on a box (C101)
-/

set_option linter.unusedSectionVars false

namespace Dt
open Dt.Topology Spec Mark Box Poisson TimeLoop

section
variable {K : Type} [Field K] [LinearOrder K] [IsStrictOrderedRing K] {sqrt : K → K} {pmin pmax : Vec K 3} {nx ny nz : Nat}

theorem gridPoint_rising {a b : K} (h : a < b) (n : Nat) : Rising (gridPoint a b n) n := by
  intro i hi
  have hn : (0 : K) < n := by exact_mod_cast (by omega : 0 < n)
  unfold gridPoint
  have := div_pos (sub_pos.2 h) hn
  push_cast
  linarith

theorem gridPoint_last {a b : K} {n : Nat} (hn : 1 ≤ n) : gridPoint a b n n = b := by
  have : (n : K) ≠ 0 := by exact_mod_cast (by omega : n ≠ 0)
  unfold gridPoint
  field_simp
  ring

theorem gridPoint_first (a b : K) (n : Nat) : gridPoint a b n 0 = a := by simp [gridPoint]

/-- C101.  The mesh on a box is a triangulation: the tetrahedra are not flat, do not overlap, and meet in whole facets. -/
theorem C101_box (hsq : ∀ s, 0 < s → 0 < sqrt s) (h : ∀ c, pmin c < pmax c) (nx ny nz : Nat) :
    Triangulation (by decide : 3 ≤ 3) (brickMesh sqrt pmin pmax nx ny nz) :=
  triangulation hsq (gridPoint_rising (h 0) nx) (gridPoint_rising (h 1) ny) (gridPoint_rising (h 2) nz)

theorem inGrid_brick (hx : 1 ≤ nx) (hy : 1 ≤ ny) (hz : 1 ≤ nz) (p : Vec K 3) :
    InGrid (gridPoint (pmin 0) (pmax 0) nx) (gridPoint (pmin 1) (pmax 1) ny) (gridPoint (pmin 2) (pmax 2) nz) nx ny nz p ↔
      InBrick pmin pmax p := by
  unfold InGrid InBrick
  rw [gridPoint_last hx, gridPoint_last hy, gridPoint_last hz, gridPoint_first, gridPoint_first, gridPoint_first]
  constructor
  · rintro ⟨a, b, c⟩ m
    fin_cases m
    · exact a
    · exact b
    · exact c
  · intro h
    exact ⟨h 0, h 1, h 2⟩

/-- C101 (points).  The tetrahedra cover the box and nothing else. -/
theorem C101_points (sqrt : K → K) (h : ∀ c, pmin c < pmax c) (hx : 1 ≤ nx) (hy : 1 ≤ ny) (hz : 1 ≤ nz) (p : Vec K 3) :
    (∃ c ∈ (brickMesh sqrt pmin pmax nx ny nz).cells, InHull (corner (brickMesh sqrt pmin pmax nx ny nz) c) p) ↔ InBrick pmin pmax p := by
  rw [← inGrid_brick hx hy hz]
  exact points_iff (gridPoint_rising (h 0) nx) (gridPoint_rising (h 1) ny) (gridPoint_rising (h 2) nz) hx hy hz p

/-- C101 (vertices and volumes).  The vertices are at equal distances in each direction; there are six tetrahedra in each box of
the grid, all of the same volume. -/
theorem C101_cells (sqrt : K → K) (h : ∀ c, pmin c < pmax c) (nx ny nz : Nat) :
    (∀ i ≤ nx, ∀ j ≤ ny, ∀ k ≤ nz, (brickMesh sqrt pmin pmax nx ny nz).coord (k * ((nx + 1) * (ny + 1)) + j * (nx + 1) + i) =
      ![pmin 0 + i * ((pmax 0 - pmin 0) / nx), pmin 1 + j * ((pmax 1 - pmin 1) / ny), pmin 2 + k * ((pmax 2 - pmin 2) / nz)]) ∧
    (brickMesh sqrt pmin pmax nx ny nz).cells.length = 6 * (nx * ny * nz) ∧
    ∀ c ∈ (brickMesh sqrt pmin pmax nx ny nz).cells, tetVolume (corner (brickMesh sqrt pmin pmax nx ny nz) c) =
      (pmax 0 - pmin 0) * (pmax 1 - pmin 1) * (pmax 2 - pmin 2) / (6 * (nx * ny * nz)) := by
  refine ⟨fun i hi j hj k _ => ?_, ?_, ?_⟩
  · have := coord_vertNo (x := gridPoint (pmin 0) (pmax 0) nx) (y := gridPoint (pmin 1) (pmax 1) ny)
      (z := gridPoint (pmin 2) (pmax 2) nz) (k := k) hi hj
    have e : k * ((nx + 1) * (ny + 1)) + j * (nx + 1) + i = vertNo nx ny i j k := by unfold vertNo; ring
    rw [e]
    exact this
  · simp [brickMesh, dmesh, simplices, List.length_flatMap]
    ring
  · intro c hc
    obtain ⟨i, j, k, t, hi, hj, hk, rfl⟩ := mem_simplices.1 hc
    have d : ∀ (a b : K) (n m : Nat), gridPoint a b n (m + 1) - gridPoint a b n m = (b - a) / n := by
      intro a b n m
      unfold gridPoint
      push_cast
      ring
    have px := div_pos (sub_pos.2 (h 0)) (by exact_mod_cast (by omega : 0 < nx) : (0 : K) < nx)
    have py := div_pos (sub_pos.2 (h 1)) (by exact_mod_cast (by omega : 0 < ny) : (0 : K) < ny)
    have pz := div_pos (sub_pos.2 (h 2)) (by exact_mod_cast (by omega : 0 < nz) : (0 : K) < nz)
    have hpos := mul_pos (mul_pos px py) pz
    have e : ∀ s : K, s = (pmax 0 - pmin 0) / nx * ((pmax 1 - pmin 1) / ny) * ((pmax 2 - pmin 2) / nz) ∨
        -s = (pmax 0 - pmin 0) / nx * ((pmax 1 - pmin 1) / ny) * ((pmax 2 - pmin 2) / nz) →
        |s| / 6 = (pmax 0 - pmin 0) * (pmax 1 - pmin 1) * (pmax 2 - pmin 2) / (6 * (nx * ny * nz)) := by
      intro s hs
      have ha : |s| = (pmax 0 - pmin 0) / nx * ((pmax 1 - pmin 1) / ny) * ((pmax 2 - pmin 2) / nz) := by
        rcases hs with hs | hs
        · rw [hs]; exact abs_of_pos hpos
        · rw [← abs_neg, hs]; exact abs_of_pos hpos
      rw [ha]
      have n1 : (nx : K) ≠ 0 := by exact_mod_cast (by omega : nx ≠ 0)
      have n2 : (ny : K) ≠ 0 := by exact_mod_cast (by omega : ny ≠ 0)
      have n3 : (nz : K) ≠ 0 := by exact_mod_cast (by omega : nz ≠ 0)
      field_simp
    unfold tetVolume brickMesh
    simp only [corner_simplex hi hj]
    apply e
    rw [← d (pmin 0) (pmax 0) nx i, ← d (pmin 1) (pmax 1) ny j, ← d (pmin 2) (pmax 2) nz k]
    cases t <;> simp only [Box.step, Tet.steps, Pi.sub_apply, Matrix.cons_val_zero, Matrix.cons_val_one, Matrix.cons_val, Fin.isValue,
      List.getElem?_cons_zero, List.getElem?_cons_succ, Option.getD_some, Fin.val_zero, Fin.val_one, Nat.add_zero,
      show ((2 : Fin 4) : Nat) = 2 from rfl, show ((3 : Fin 4) : Nat) = 3 from rfl]
    all_goals first | (left; ring1) | (right; ring1)

/-! ### Particles -/

/-- C101 (domain).  The box is convex, as C75 and C97 want it. -/
theorem brick_convex (hsq : ∀ s, 0 < s → 0 < sqrt s) (h : ∀ c, pmin c < pmax c) (hx : 1 ≤ nx) (hy : 1 ≤ ny) (hz : 1 ≤ nz) :
    ConvexDomain (by decide : 3 ≤ 3) (brickMesh sqrt pmin pmax nx ny nz) (fun p => decide (InBrick pmin pmax p)) := by
  classical
  have := convex (sq := sqrt) hsq (gridPoint_rising (h 0) nx) (gridPoint_rising (h 1) ny) (gridPoint_rising (h 2) nz) hx hy hz
  have e : (fun p => decide (InBrick pmin pmax p)) = fun p => decide (InGrid (gridPoint (pmin 0) (pmax 0) nx)
      (gridPoint (pmin 1) (pmax 1) ny) (gridPoint (pmin 2) (pmax 2) nz) nx ny nz p) := by
    funext p
    exact decide_eq_decide.2 (inGrid_brick hx hy hz p).symm
  rw [e]
  exact this

section
variable {τ ρ : Type}

/-- C101 (mover).  If all facets at the surface are marked (by other means than `create_mesh`) and particles are absorbed
there: a particle in the box makes a leapfrog step and is marked for deletion exactly if this takes it out of the box,
or the limit on the number of facets crossed in a step is reached. -/
theorem C101_mover (hsq : ∀ s, 0 < s → 0 < sqrt s) (h : ∀ c, pmin c < pmax c) (hx : 1 ≤ nx) (hy : 1 ≤ ny) (hz : 1 ≤ nz)
    {D : DMesh K 3} (hD : D = brickMesh sqrt pmin pmax nx ny nz) (junk : Int) {marker : Int → Int}
    (hm : ∀ c ∈ D.cells, ∀ F ∈ c.facets, (∀ c' ∈ D.cells, F ∈ c'.facets → c'.index = c.index) → marker F ≠ 0) :
    ∃ M, buildMesh (by decide) D junk marker = .ok M ∧
      ∀ {v : Variant}, v.datum = .ok () →
      ∀ {bc : Int → τ → BCall K 3 3 ρ → Except Err (τ × Part K 3 ρ)}, PlainBC M bc →
      ∀ (n : Nat) (time dt qom : K) (E : Part K 3 ρ → Option (Vec K 3)) (st : τ × Vec K 3) (q : Part K 3 ρ), InSimplex D q →
        (∃ st' q' evs, moveCharged (le_refl 3) M v bc n time dt (qom * dt) false E st q = .ok (st', q', evs) ∧
          kin q' = leap dt qom (E q) (kin q) ∧ (q'.del = true ↔ ¬ InBrick pmin pmax q'.x) ∧
          (InBrick pmin pmax q'.x → ∃ c ∈ D.cells, c.index = q'.cell ∧ InHull (corner D c) q'.x)) ∨
        moveCharged (le_refl 3) M v bc n time dt (qom * dt) false E st q = .error (v.err .tooMany) := by
  subst hD
  have hT := C101_box hsq h nx ny nz
  obtain ⟨M, e, -, hM⟩ := C88_conforming hT junk hm
  obtain ⟨M', e', -, hin, -⟩ := C88_points hT junk marker
  rw [e] at e'
  cases e'
  refine ⟨M, e, ?_⟩
  intro v hv bc hbc n time dt qom E st q hq
  have hpr := (present_built hT e).2 hq
  rcases C28_no_error hM hv hbc.good n time dt (qom * dt) false E st hpr.1 with ⟨⟨st', q', evs⟩, hr⟩ | ⟨hr, -⟩
  · obtain ⟨h1, h2⟩ := C75_particle hM (convex_built hT e (brick_convex hsq h hx hy hz)) hv hbc hpr hr
    have hdel : q'.del = true ↔ ¬ InBrick pmin pmax q'.x := by
      rw [h2]
      show (!decide (InBrick pmin pmax q'.x)) = true ↔ _
      simp
    refine .inl ⟨st', q', evs, hr, h1, hdel, fun hb => ?_⟩
    rcases C25_cell_label hbc.keepsCell (.inl hr) with h3 | h3
    · exact (hin _ _).1 h3
    · exact absurd hb (hdel.1 h3.1)
  · exact .inr hr

/-- C101 is false for the marks of `create_mesh`: in three dimensions `particle_boundary_dict` is accepted, but a particle that
leaves the box makes the mover fail, whatever the dictionary and the callbacks say. -/
theorem C101_false_walls (hsq : ∀ s, 0 < s → 0 < sqrt s) (h : ∀ c, pmin c < pmax c) (hx : 1 ≤ nx) (hy : 1 ≤ ny) (hz : 1 ≤ nz)
    (d : Dict) (junk : Int) :
    ∃ pm M, createXYZ (ι := Int) none (some d) none = .ok ⟨none, some pm⟩ ∧
      buildMesh (by decide) (brickMesh sqrt pmin pmax nx ny nz) junk pm = .ok M ∧
      ∀ (v : Variant) (bc : Int → τ → BCall K 3 3 ρ → Except Err (τ × Part K 3 ρ)) (n : Nat) (time dt qom : K)
        (E : Part K 3 ρ → Option (Vec K 3)) (st : τ × Vec K 3) (q : Part K 3 ρ), q.del = false →
        ¬ InBrick pmin pmax (leap dt qom (E q) (kin q)).1 →
        ∃ er, moveCharged (le_refl 3) M v bc n time dt (qom * dt) false E st q = .error er := by
  have hT := C101_box hsq h nx ny nz
  obtain ⟨M, e, -, hin, -⟩ := C88_points hT junk (fun _ => 0)
  obtain ⟨M', e', hmk, -, -⟩ := build_ok hT.manifold junk (fun _ => 0)
  rw [e] at e'
  cases e'
  refine ⟨fun _ => 0, M, rfl, e, ?_⟩
  intro v bc n time dt qom E st q hd hout
  refine C83_false_unmarked (fun F => by rw [hmk]) v bc n time dt qom E st hd ?_
  intro ci hi
  obtain ⟨c, hc, -, hp⟩ := (hin _ _).1 hi
  exact hout ((C101_points sqrt h hx hy hz _).1 ⟨c, hc, hp⟩)

end

/-! ### The field -/

section
variable {S : Nat → Prop} {x y z : Nat → K} {i j k : Nat}

theorem box_linked (hi : i < nx) (hj : j < ny) (hk : k < nz) (s s' : Nat × Nat × Nat) (hs : s.1 ≤ 1 ∧ s.2.1 ≤ 1 ∧ s.2.2 ≤ 1)
    (hs' : s'.1 ≤ 1 ∧ s'.2.1 ≤ 1 ∧ s'.2.2 ≤ 1)
    (h : Linked (dmesh sqrt x y z nx ny nz) S (vertNo nx ny (i + s.1) (j + s.2.1) (k + s.2.2))) :
    Linked (dmesh sqrt x y z nx ny nz) S (vertNo nx ny (i + s'.1) (j + s'.2.1) (k + s'.2.2)) := by
  have key : ∀ s : Nat × Nat × Nat, s.1 ≤ 1 ∧ s.2.1 ≤ 1 ∧ s.2.2 ≤ 1 → ∃ t : Tet,
      vertNo nx ny i j k ∈ tetVerts nx ny i j k t ∧ vertNo nx ny (i + s.1) (j + s.2.1) (k + s.2.2) ∈ tetVerts nx ny i j k t := by
    rintro ⟨a, b, c⟩ ⟨ha, hb, hc⟩
    dsimp only at ha hb hc ⊢
    have h0 : ∀ t, vertNo nx ny i j k ∈ tetVerts nx ny i j k t := by intro t; cases t <;> simp [tetVerts, Tet.steps]
    interval_cases a <;> interval_cases b <;> interval_cases c
    · exact ⟨.xyz, h0 _, by simp [tetVerts, Tet.steps]⟩
    · exact ⟨.zxy, h0 _, by simp [tetVerts, Tet.steps]⟩
    · exact ⟨.yxz, h0 _, by simp [tetVerts, Tet.steps]⟩
    · exact ⟨.yzx, h0 _, by simp [tetVerts, Tet.steps]⟩
    · exact ⟨.xyz, h0 _, by simp [tetVerts, Tet.steps]⟩
    · exact ⟨.xzy, h0 _, by simp [tetVerts, Tet.steps]⟩
    · exact ⟨.xyz, h0 _, by simp [tetVerts, Tet.steps]⟩
    · exact ⟨.xyz, h0 _, by simp [tetVerts, Tet.steps]⟩
  obtain ⟨t, h1, h2⟩ := key s hs
  obtain ⟨t', h1', h2'⟩ := key s' hs'
  have mem : ∀ t, simplex sqrt x y z nx ny i j k t ∈ (dmesh sqrt x y z nx ny nz).cells := fun t =>
    mem_simplices.2 ⟨i, j, k, t, hi, hj, hk, rfl⟩
  exact .step (mem t') h1' h2' (.step (mem t) h2 h1 h)

/-- All vertices are connected. -/
theorem all_linked (hx : 1 ≤ nx) (hy : 1 ≤ ny) (hz : 1 ≤ nz) {a b c : Nat} (ha : a ≤ nx) (hb : b ≤ ny) (hc : c ≤ nz)
    (h : S (vertNo nx ny a b c)) {a' b' c' : Nat} (ha' : a' ≤ nx) (hb' : b' ≤ ny) (hc' : c' ≤ nz) :
    Linked (dmesh sqrt x y z nx ny nz) S (vertNo nx ny a' b' c') := by
  have one : ∀ {a n : Nat}, 1 ≤ n → a ≤ n → ∃ i s, i < n ∧ s ≤ 1 ∧ a = i + s := by
    intro a n hn ha
    rcases Nat.eq_or_lt_of_le ha with rfl | hlt
    · exact ⟨a - 1, 1, by omega, by omega, by omega⟩
    · exact ⟨a, 0, hlt, by omega, by omega⟩
  -- down to the first corner
  have d1 : ∀ i j k, i < nx → j < ny → k < nz → Linked (dmesh sqrt x y z nx ny nz) S (vertNo nx ny i j k) →
      Linked (dmesh sqrt x y z nx ny nz) S (vertNo nx ny 0 0 0) := by
    intro i
    induction i with
    | succ i ih =>
      intro j k hi hj hk hl
      exact ih j k (by omega) hj hk (box_linked (by omega) hj hk (1, 0, 0) (0, 0, 0) (by simp) (by simp) hl)
    | zero =>
      intro j
      induction j with
      | succ j ih =>
        intro k hi hj hk hl
        exact ih k hi (by omega) hk (box_linked hi (by omega) hk (0, 1, 0) (0, 0, 0) (by simp) (by simp) hl)
      | zero =>
        intro k
        induction k with
        | succ k ih =>
          intro hi hj hk hl
          exact ih hi hj (by omega) (box_linked hi hj (by omega) (0, 0, 1) (0, 0, 0) (by simp) (by simp) hl)
        | zero => intro _ _ _ hl; exact hl
  have u1 : ∀ i j k, i < nx → j < ny → k < nz → Linked (dmesh sqrt x y z nx ny nz) S (vertNo nx ny 0 0 0) →
      Linked (dmesh sqrt x y z nx ny nz) S (vertNo nx ny i j k) := by
    intro i
    induction i with
    | succ i ih =>
      intro j k hi hj hk hl
      exact box_linked (by omega) hj hk (0, 0, 0) (1, 0, 0) (by simp) (by simp) (ih j k (by omega) hj hk hl)
    | zero =>
      intro j
      induction j with
      | succ j ih =>
        intro k hi hj hk hl
        exact box_linked hi (by omega) hk (0, 0, 0) (0, 1, 0) (by simp) (by simp) (ih k hi (by omega) hk hl)
      | zero =>
        intro k
        induction k with
        | succ k ih =>
          intro hi hj hk hl
          exact box_linked hi hj (by omega) (0, 0, 0) (0, 0, 1) (by simp) (by simp) (ih hi hj (by omega) hl)
        | zero => intro _ _ _ hl; exact hl
  obtain ⟨i, s, hi, hs, rfl⟩ := one hx ha
  obtain ⟨j, t, hj, ht, rfl⟩ := one hy hb
  obtain ⟨k, u, hk, hu, rfl⟩ := one hz hc
  obtain ⟨i', s', hi', hs', rfl⟩ := one hx ha'
  obtain ⟨j', t', hj', ht', rfl⟩ := one hy hb'
  obtain ⟨k', u', hk', hu', rfl⟩ := one hz hc'
  have h0 : Linked (dmesh sqrt x y z nx ny nz) S (vertNo nx ny (i + s) (j + t) (k + u)) := .base h
  have e1 := box_linked hi hj hk (s, t, u) (0, 0, 0) ⟨hs, ht, hu⟩ (by simp) h0
  have e2 := u1 i' j' k' hi' hj' hk' (d1 i j k hi hj hk e1)
  exact box_linked hi' hj' hk' (0, 0, 0) (s', t', u') (by simp) ⟨hs', ht', hu'⟩ e2

end

theorem vert_range {a b c : Nat} (ha : a ≤ nx) (hb : b ≤ ny) (hc : c ≤ nz) :
    vertNo nx ny a b c ≤ (nx + 1) * (ny + 1) * (nz + 1) - 1 := by
  have := pos_lt (nx := nx + 1) (ny := ny + 1) (nz := nz + 1) (i := a) (j := b) (k := c) (by omega) (by omega) (by omega)
  unfold vertNo
  omega

theorem vert_form {v : Nat} (h : v ≤ (nx + 1) * (ny + 1) * (nz + 1) - 1) :
    ∃ a b c, a ≤ nx ∧ b ≤ ny ∧ c ≤ nz ∧ v = vertNo nx ny a b c := by
  have hpos : 0 < (nx + 1) * (ny + 1) * (nz + 1) := by positivity
  refine ⟨v % (nx + 1), v / (nx + 1) % (ny + 1), v / (nx + 1) / (ny + 1), ?_, ?_, ?_, ?_⟩
  · have := Nat.mod_lt v (by omega : 0 < nx + 1); omega
  · have := Nat.mod_lt (v / (nx + 1)) (by omega : 0 < ny + 1); omega
  · have : v / (nx + 1) / (ny + 1) < nz + 1 := by
      refine Nat.div_lt_of_lt_mul (Nat.div_lt_of_lt_mul ?_)
      rw [← Nat.mul_assoc]
      omega
    omega
  · unfold vertNo
    rw [Nat.mul_comm (v / (nx + 1) / (ny + 1)), Nat.div_add_mod, Nat.mul_comm, Nat.div_add_mod]

theorem verts_form {c : DSimplex K} {x y z : Nat → K} (hc : c ∈ (dmesh sqrt x y z nx ny nz).cells) {v : Nat} (hv : v ∈ c.verts) :
    ∃ a b c, a ≤ nx ∧ b ≤ ny ∧ c ≤ nz ∧ v = vertNo nx ny a b c := by
  obtain ⟨i, j, k, t, hi, hj, hk, rfl⟩ := mem_simplices.1 hc
  obtain ⟨s, hs, rfl⟩ := List.mem_map.1 hv
  have : s.1 ≤ 1 ∧ s.2.1 ≤ 1 ∧ s.2.2 ≤ 1 := by
    cases t <;> simp only [Tet.steps, List.mem_cons, List.not_mem_nil, or_false] at hs <;> rcases hs with rfl | rfl | rfl | rfl <;> simp
  exact ⟨_, _, _, by omega, by omega, by omega, rfl⟩

section
variable {τ ρ V : Type} {marker pmarker : Int → Int} {eps : K} {lo hi : Int} {v0 vN : K}

/-- C101 (plasma).  A plasma in a box, if the surface is marked for particles, which are absorbed there, and at least one facet
is marked for one of the given potentials (all this by other means than `create_mesh`): the mesh is built, the solver is
made, and from each state of a simulation to the next every charged particle makes a leapfrog step in the electric field
of all particles present, which follows from Gauss's law; it is lost if this takes it out of the box. -/
theorem C101_plasma (hsq : ∀ s, 0 < s → 0 < sqrt s) (h : ∀ c, pmin c < pmax c) (hx : 1 ≤ nx) (hy : 1 ≤ ny) (hz : 1 ≤ nz)
    {D : DMesh K 3} (hD : D = brickMesh sqrt pmin pmax nx ny nz) {N : Nat} (hN : N = (nx + 1) * (ny + 1) * (nz + 1) - 1) (junk : Int)
    (hpm : ∀ c ∈ D.cells, ∀ F ∈ c.facets, (∀ c' ∈ D.cells, F ∈ c'.facets → c'.index = c.index) → pmarker F ≠ 0)
    (he : 0 < eps) (hside : ∃ i, OnSide D marker lo i ∨ OnSide D marker hi i)
    {dd : List (String × Int × Val K)}
    (h1 : dd.lookup "rmin" = some (lo, .num v0)) (h2 : dd.lookup "rmax" = some (hi, .num vN)) :
    ∃ grad M s, Meshed D ⟨grad, fun c => tetVolume (corner D c)⟩ N ∧
      buildMesh (by decide) D junk pmarker = .ok M ∧ createOn eps D ⟨grad, fun c => tetVolume (corner D c)⟩ N marker dd = .ok s ∧
      ∀ {bc : String → Int → τ → BCall K 3 3 ρ → Except Err (τ × Part K 3 ρ)}, (∀ sn, PlainBC M (bc sn)) →
      ∀ {maxCross : Nat} {qom : String → K} {cfg : Cfg K V (Part K 3 ρ) (τ × Vec K 3) (List (Vec K 3))},
        cfg.move = pyMove (le_refl 3) M bc maxCross cfg.dt qom (fun _ f q => (f[q.cell.toNat]?).map (fun e => -e)) →
        (∀ s ∈ cfg.sources, ∀ count time side side' xs, s.make count time side = .ok (side', xs) → ∀ q ∈ xs, InSimplex D q) →
        ∀ {d : Nat → Nat} {C sl : Nat}, PlasmaOn cfg D ⟨grad, fun c => tetVolume (corner D c)⟩ N marker s d C → GoodCfg cfg →
        ∀ {z : Species.HRow K} (n : Nat) {init : Option (List (String × List (Part K 3 ρ)))},
        (∀ gs, init = some gs → ∀ a ∈ gs, ∀ q ∈ a.2, InSimplex D q) →
        ∀ {st : State K V (Part K 3 ρ) (τ × Vec K 3) (List (Vec K 3))} {i : Ideal K V (Part K 3 ρ) (τ × Vec K 3)} {b : List K},
        Fresh sl (N + 1) C n z st i b → (i.pops.map (·.name)).Nodup → (st.writer = none → cfg.partEvery = none) →
        ∀ {i0 : Ideal K V (Part K 3 ρ) (τ × Vec K 3)} {is : List (Ideal K V (Part K 3 ρ) (τ × Vec K 3))},
          Ideal.run cfg sl (N + 1) (onCells D) init b n i = .ok (i0, is) →
          (i0 :: is).IsChain (PlasmaStep eps D (fun c => tetVolume (corner D c)) marker lo hi v0 vN
            (fun p => decide (InBrick pmin pmax p)) qom cfg sl) ∧
          ∃ st', run cfg init n st = .ok st' ∧ Outcome cfg d C init.isSome b st st' i0 is := by
  subst hD hN
  have hT := C101_box hsq h nx ny nz
  obtain ⟨grad, hm⟩ := C94_shape hT (N := (nx + 1) * (ny + 1) * (nz + 1) - 1) (fun c hc v hv => by
    obtain ⟨a, b, c, ha, hb, hc, rfl⟩ := verts_form hc hv
    exact vert_range ha hb hc)
    (vol := fun c => tetVolume (corner (brickMesh sqrt pmin pmax nx ny nz) c)) (fun c hc => by
      rw [(C101_cells sqrt h nx ny nz).2.2 c hc]
      have a := sub_pos.2 (h 0)
      have b := sub_pos.2 (h 1)
      have c := sub_pos.2 (h 2)
      have n1 : (0 : K) < nx := by exact_mod_cast hx
      have n2 : (0 : K) < ny := by exact_mod_cast hy
      have n3 : (0 : K) < nz := by exact_mod_cast hz
      positivity)
  obtain ⟨i0, hi0⟩ := hside
  have hi0' : ∃ a b c, a ≤ nx ∧ b ≤ ny ∧ c ≤ nz ∧ i0 = vertNo nx ny a b c := by
    rcases hi0 with ⟨c, hc, k, F, -, -, -, j, -, hj⟩ | ⟨c, hc, k, F, -, -, -, j, -, hj⟩ <;>
      exact verts_form hc (List.mem_of_getElem? hj)
  obtain ⟨a, b, c, ha, hb, hc, rfl⟩ := hi0'
  have hl : ∀ i ≤ (nx + 1) * (ny + 1) * (nz + 1) - 1, Linked (brickMesh sqrt pmin pmax nx ny nz)
      (fun i => OnSide (brickMesh sqrt pmin pmax nx ny nz) marker lo i ∨ OnSide (brickMesh sqrt pmin pmax nx ny nz) marker hi i) i := by
    intro i hi
    obtain ⟨a', b', c', ha', hb', hc', rfl⟩ := vert_form hi
    exact all_linked hx hy hz ha hb hc hi0 ha' hb' hc'
  obtain ⟨M, s, e, hs, hrest⟩ := C97_plasma (τ := τ) (ρ := ρ) (V := V) hT (brick_convex hsq h hx hy hz) junk hpm he hm hl h1 h2
  exact ⟨grad, M, s, hm, e, hs, hrest⟩

end

end

/-! ### A case -/

/-- The unit cube. -/
noncomputable abbrev cube (n : Nat) : DMesh ℝ 3 := brickMesh Real.sqrt ![0, 0, 0] ![1, 1, 1] n n n

theorem cube_sides : ∀ c, (![0, 0, 0] : Vec ℝ 3) c < (![1, 1, 1] : Vec ℝ 3) c := by
  intro c; fin_cases c <;> simp

example (n : Nat) : Triangulation (by decide : 3 ≤ 3) (cube n) :=
  C101_box (fun _ h => Real.sqrt_pos.2 h) cube_sides n n n

/-- A particle in the cube and one that leaves it. -/
example : InBrick (![0, 0, 0] : Vec ℝ 3) ![1, 1, 1] ![1 / 2, 1 / 4, 1 / 8] ∧
    ¬ InBrick (![0, 0, 0] : Vec ℝ 3) ![1, 1, 1] (leap (1 : ℝ) 1 none (![1 / 2, 1 / 4, 1 / 8], ![1, 0, 0], ())).1 := by
  constructor
  · intro c; fin_cases c <;> constructor <;> norm_num
  · intro h
    have := (h 0).2
    norm_num [leap] at this

/-- A field marker that marks one facet of the cube. -/
example : ∃ i, OnSide (cube 2) (fun F => if F = 0 then 1 else 0) 1 i ∨ OnSide (cube 2) (fun F => if F = 0 then 1 else 0) 2 i := by
  refine ⟨0, .inl ⟨simplex Real.sqrt _ _ _ 2 2 0 0 0 .xyz, mem_simplices.2 ⟨0, 0, 0, .xyz, by decide, by decide, by decide, rfl⟩, 3, 0,
    by decide, ?_, rfl, 0, by simp [onFacet], ?_⟩⟩
  · simp [simplex, labels, facetNo, vertNo]
  · simp [simplex, tetVerts, Tet.steps, vertNo]

end Dt
