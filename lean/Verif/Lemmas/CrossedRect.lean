import Verif.Lemmas.CrossSector
import Verif.Lemmas.BoxGrid
import Verif.Lemmas.Walls
import Verif.Spec.Plasma
import Verif.Spec.RectMesh

/-!
# Rectangles with crossed diagonals
-/

set_option linter.unusedSectionVars false

namespace Dt
namespace Crossed
open Dt.Topology Spec Rect Sector
variable {K : Type} [Field K] [LinearOrder K] [IsStrictOrderedRing K]
variable {sq : K → K} {x y : Nat → K} {nx ny i j i' j' : Nat} {t t' : Tri} {p : Vec K 2}

/-- The vertices of a triangle. -/
def spot (x y : Nat → K) (i j : Nat) : Tri → Fin 3 → K × K
  | .bottom => ![(x i, y j), (x (i + 1), y j), ((x i + x (i + 1)) / 2, (y j + y (j + 1)) / 2)]
  | .left => ![(x i, y j), (x i, y (j + 1)), ((x i + x (i + 1)) / 2, (y j + y (j + 1)) / 2)]
  | .right => ![(x (i + 1), y j), (x (i + 1), y (j + 1)), ((x i + x (i + 1)) / 2, (y j + y (j + 1)) / 2)]
  | .top => ![(x i, y (j + 1)), (x (i + 1), y (j + 1)), ((x i + x (i + 1)) / 2, (y j + y (j + 1)) / 2)]

theorem corner_spot (hi : i < nx) (hj : j < ny) (k : Fin 3) :
    corner (dmesh sq x y nx ny) (simplex sq x y nx ny i j t) k = ![(spot x y i j t k).1, (spot x y i j t k).2] := by
  have m : ∀ {w : Nat}, coord x y nx ny (midNo nx ny i w) = ![(x i + x (i + 1)) / 2, (y w + y (w + 1)) / 2] := fun {w} => by
    have h1 : (w * nx + i) % nx = i := by rw [Nat.mul_comm, Nat.mul_add_mod]; exact Nat.mod_eq_of_lt hi
    have h2 : (w * nx + i) / nx = w := by
      rw [Nat.mul_comm, Nat.mul_add_div (by omega), Nat.div_eq_of_lt hi, Nat.add_zero]
    have h3 : ¬ midNo nx ny i w < (nx + 1) * (ny + 1) := by unfold midNo; omega
    have h4 : midNo nx ny i w - (nx + 1) * (ny + 1) = w * nx + i := by unfold midNo; omega
    unfold coord
    rw [if_neg h3, h4]
    dsimp only
    rw [h1, h2]
  have gr : ∀ {v w : Nat}, v ≤ nx → w ≤ ny → coord x y nx ny (vertNo nx v w) = ![x v, y w] := by
    intro v w hv hw
    have h1 : (w * (nx + 1) + v) % (nx + 1) = v := by rw [Nat.mul_comm, Nat.mul_add_mod]; exact Nat.mod_eq_of_lt (by omega)
    have h2 : (w * (nx + 1) + v) / (nx + 1) = w := by
      rw [Nat.mul_comm, Nat.mul_add_div (by omega), Nat.div_eq_of_lt (by omega), Nat.add_zero]
    have h3 : vertNo nx v w < (nx + 1) * (ny + 1) := by
      unfold vertNo
      have : w * (nx + 1) ≤ ny * (nx + 1) := Nat.mul_le_mul_right _ hw
      have e : (nx + 1) * (ny + 1) = ny * (nx + 1) + (nx + 1) := by ring
      omega
    unfold coord
    rw [if_pos h3]
    unfold vertNo
    rw [h1, h2]
  cases t <;> fin_cases k <;>
    first
    | exact m
    | exact gr hi.le hj.le
    | exact gr hi hj.le
    | exact gr hi.le hj
    | exact gr hi hj

/-- On which side of the diagonals of box `(i, j)` a point is. -/
def rise (x y : Nat → K) (i j : Nat) (p : Vec K 2) : K := (p 0 - x i) * (y (j + 1) - y j) - (p 1 - y j) * (x (i + 1) - x i)

def fall (x y : Nat → K) (i j : Nat) (p : Vec K 2) : K :=
  (p 0 - x i) * (y (j + 1) - y j) + (p 1 - y j) * (x (i + 1) - x i) - (x (i + 1) - x i) * (y (j + 1) - y j)

/-- The signs of `rise` and `fall` in a triangle. -/
def signs : Tri → Bool × Bool
  | .bottom => (true, false)
  | .left => (false, false)
  | .right => (true, true)
  | .top => (false, true)

theorem signs_inj (h : signs t = signs t') : t = t' := by cases t <;> cases t' <;> first | rfl | cases h

/-- `w` is a point of the triangle, with weights. -/
theorem spread (hi : i < nx) (hj : j < ny) {w : Fin 3 → K}
    (h : ∀ c, p c = ∑ k, w k * corner (dmesh sq x y nx ny) (simplex sq x y nx ny i j t) k c) :
    p 0 = w 0 * (spot x y i j t 0).1 + w 1 * (spot x y i j t 1).1 + w 2 * (spot x y i j t 2).1 ∧
    p 1 = w 0 * (spot x y i j t 0).2 + w 1 * (spot x y i j t 1).2 + w 2 * (spot x y i j t 2).2 := by
  constructor
  · rw [h 0, Fin.sum_univ_three, corner_spot hi hj, corner_spot hi hj, corner_spot hi hj]; rfl
  · rw [h 1, Fin.sum_univ_three, corner_spot hi hj, corner_spot hi hj, corner_spot hi hj]; rfl

/-- The interior of a triangle. -/
structure InTri (x y : Nat → K) (i j : Nat) (t : Tri) (p : Vec K 2) : Prop where
  x0 : x i < p 0
  x1 : p 0 < x (i + 1)
  y0 : y j < p 1
  y1 : p 1 < y (j + 1)
  rise : if (signs t).1 then 0 < rise x y i j p else rise x y i j p < 0
  fall : if (signs t).2 then 0 < fall x y i j p else fall x y i j p < 0

/-- Box coordinates, from 0 to 1, of a point of a triangle. -/
def uv (a b : K) : Tri → K × K
  | .bottom => (b + (1 - a - b) / 2, (1 - a - b) / 2)
  | .left => ((1 - a - b) / 2, b + (1 - a - b) / 2)
  | .right => (a + b + (1 - a - b) / 2, b + (1 - a - b) / 2)
  | .top => (b + (1 - a - b) / 2, a + b + (1 - a - b) / 2)

theorem spread_uv (hi : i < nx) (hj : j < ny) {w : Fin 3 → K} (h1 : ∑ k, w k = 1)
    (h : ∀ c, p c = ∑ k, w k * corner (dmesh sq x y nx ny) (simplex sq x y nx ny i j t) k c) :
    p 0 = x i + (uv (w 0) (w 1) t).1 * (x (i + 1) - x i) ∧ p 1 = y j + (uv (w 0) (w 1) t).2 * (y (j + 1) - y j) := by
  obtain ⟨e0, e1⟩ := spread hi hj h
  rw [Fin.sum_univ_three] at h1
  have hc : w 2 = 1 - w 0 - w 1 := by linarith
  rw [e0, e1, hc]
  cases t <;> simp only [spot, uv, Matrix.cons_val_zero, Matrix.cons_val_one, Matrix.cons_val] <;> constructor <;> ring

theorem rise_uv {u v : K} (h0 : p 0 = x i + u * (x (i + 1) - x i)) (h1 : p 1 = y j + v * (y (j + 1) - y j)) :
    rise x y i j p = (u - v) * ((x (i + 1) - x i) * (y (j + 1) - y j)) ∧
    fall x y i j p = (u + v - 1) * ((x (i + 1) - x i) * (y (j + 1) - y j)) := by
  unfold rise fall
  rw [h0, h1]
  constructor <;> ring

theorem inTri_of (hx : x i < x (i + 1)) (hy : y j < y (j + 1)) (hi : i < nx) (hj : j < ny)
    (h : InInterior (corner (dmesh sq x y nx ny) (simplex sq x y nx ny i j t)) p) : InTri x y i j t p := by
  obtain ⟨w, hw, h1, hp⟩ := h
  obtain ⟨e0, e1⟩ := spread_uv hi hj h1 hp
  obtain ⟨er, ef⟩ := rise_uv e0 e1
  rw [Fin.sum_univ_three] at h1
  have w0 := hw 0
  have w1 := hw 1
  have w2 := hw 2
  generalize w 0 = a at *
  generalize w 1 = b at *
  generalize w 2 = c at *
  have hX := sub_pos.2 hx
  have hY := sub_pos.2 hy
  have hXY := mul_pos hX hY
  have bd : 0 < (uv a b t).1 ∧ (uv a b t).1 < 1 ∧ 0 < (uv a b t).2 ∧ (uv a b t).2 < 1 := by
    cases t <;> simp only [uv] <;> refine ⟨?_, ?_, ?_, ?_⟩ <;> linarith
  refine ⟨?_, ?_, ?_, ?_, ?_, ?_⟩
  · rw [e0]; linarith [mul_pos bd.1 hX]
  · rw [e0]; linarith [mul_pos (sub_pos.2 bd.2.1) hX]
  · rw [e1]; linarith [mul_pos bd.2.2.1 hY]
  · rw [e1]; linarith [mul_pos (sub_pos.2 bd.2.2.2) hY]
  · rw [er]
    cases t <;> simp only [signs, if_true, Bool.false_eq_true, if_false, uv] <;>
      first | (refine mul_pos ?_ hXY; linarith) | (refine mul_neg_of_neg_of_pos ?_ hXY; linarith)
  · rw [ef]
    cases t <;> simp only [signs, if_true, Bool.false_eq_true, if_false, uv] <;>
      first | (refine mul_pos ?_ hXY; linarith) | (refine mul_neg_of_neg_of_pos ?_ hXY; linarith)

theorem dmesh_redraw : redraw sq id (dmesh sq x y nx ny) = dmesh sq x y nx ny := by
  unfold redraw
  have : List.map (fun c : DSimplex K => (⟨c.index, c.verts, c.facets, normals sq (fun i => id ((dmesh sq x y nx ny).coord ((c.verts[i]?).getD 0)))⟩ :
      DSimplex K)) (dmesh sq x y nx ny).cells = (dmesh sq x y nx ny).cells := by
    conv_rhs => rw [← List.map_id (dmesh sq x y nx ny).cells]
    refine List.map_congr_left fun c hc => ?_
    obtain ⟨i, j, t, -, -, rfl⟩ := mem_simplices.1 hc
    rfl
  rw [this]
  rfl

theorem rect_triangulation (hsq : ∀ s, 0 < s → 0 < sq s) (hx : Box.Rising x nx) (hy : Box.Rising y ny) :
    Triangulation (by decide : 2 ≤ 3) (dmesh sq x y nx ny) := by
  rw [← dmesh_redraw]
  refine redraw_triangulation hsq (dmesh_frame sq x y nx ny) ?_ ?_
  · intro c hc
    obtain ⟨i, j, t, hi, hj, rfl⟩ := mem_simplices.1 hc
    have h1 := sub_pos.2 (hx i hi)
    have h2 := sub_pos.2 (hy j hj)
    have h3 := mul_pos h1 h2
    simp only [id_eq, corner_spot hi hj, Sector.area]
    cases t <;> simp [spot] <;> constructor <;> intro h <;> nlinarith
  · intro c hc c' hc' hne p ⟨h, h'⟩
    obtain ⟨i, j, t, hi, hj, rfl⟩ := mem_simplices.1 hc
    obtain ⟨i', j', t', hi', hj', rfl⟩ := mem_simplices.1 hc'
    have a := inTri_of (hx i hi) (hy j hj) hi hj h
    have b := inTri_of (hx i' hi') (hy j' hj') hi' hj' h'
    have key : ∀ {z : Nat → K} {n a b : Nat} {q : K}, Box.Rising z n → a < n → z a < q → q < z (b + 1) → a ≤ b := by
      intro z n a b q hz ha h1 h2
      by_contra hc
      have := hz.le (a := b + 1) (b := a) (by omega) ha.le
      linarith
    obtain rfl : i = i' := le_antisymm (key hx hi a.x0 b.x1) (key hx hi' b.x0 a.x1)
    obtain rfl : j = j' := le_antisymm (key hy hj a.y0 b.y1) (key hy hj' b.y0 a.y1)
    have ht : t = t' := by
      apply signs_inj
      have r1 := a.rise
      have r2 := b.rise
      have f1 := a.fall
      have f2 := b.fall
      refine Prod.ext ?_ ?_
      · cases h1 : (signs t).1 <;> cases h2 : (signs t').1 <;> simp only [h1, h2, if_true, Bool.false_eq_true, if_false] at r1 r2 <;>
          first | rfl | (exfalso; linarith)
      · cases h1 : (signs t).2 <;> cases h2 : (signs t').2 <;> simp only [h1, h2, if_true, Bool.false_eq_true, if_false] at f1 f2 <;>
          first | rfl | (exfalso; linarith)
    subst ht
    exact hne rfl

/-! ### The points -/

theorem hull_iff (hx : x i < x (i + 1)) (hy : y j < y (j + 1)) (hi : i < nx) (hj : j < ny) :
    InHull (corner (dmesh sq x y nx ny) (simplex sq x y nx ny i j t)) p ↔
      x i ≤ p 0 ∧ p 0 ≤ x (i + 1) ∧ y j ≤ p 1 ∧ p 1 ≤ y (j + 1) ∧
      (if (signs t).1 then 0 ≤ rise x y i j p else rise x y i j p ≤ 0) ∧
      (if (signs t).2 then 0 ≤ fall x y i j p else fall x y i j p ≤ 0) := by
  constructor
  · rintro ⟨w, hw, h1, hp⟩
    obtain ⟨e0, e1⟩ := spread_uv hi hj h1 hp
    obtain ⟨er, ef⟩ := rise_uv e0 e1
    rw [Fin.sum_univ_three] at h1
    have w0 := hw 0
    have w1 := hw 1
    have w2 := hw 2
    generalize w 0 = a at *
    generalize w 1 = b at *
    generalize w 2 = c at *
    have hX := sub_pos.2 hx
    have hY := sub_pos.2 hy
    have hXY := mul_pos hX hY
    have bd : 0 ≤ (uv a b t).1 ∧ (uv a b t).1 ≤ 1 ∧ 0 ≤ (uv a b t).2 ∧ (uv a b t).2 ≤ 1 := by
      cases t <;> simp only [uv] <;> refine ⟨?_, ?_, ?_, ?_⟩ <;> linarith
    refine ⟨?_, ?_, ?_, ?_, ?_, ?_⟩
    · rw [e0]; linarith [mul_nonneg bd.1 hX.le]
    · rw [e0]; linarith [mul_nonneg (sub_nonneg.2 bd.2.1) hX.le]
    · rw [e1]; linarith [mul_nonneg bd.2.2.1 hY.le]
    · rw [e1]; linarith [mul_nonneg (sub_nonneg.2 bd.2.2.2) hY.le]
    · rw [er]
      cases t <;> simp only [signs, if_true, Bool.false_eq_true, if_false, uv] <;>
        first | (refine mul_nonneg ?_ hXY.le; linarith) | (refine mul_nonpos_of_nonpos_of_nonneg ?_ hXY.le; linarith)
    · rw [ef]
      cases t <;> simp only [signs, if_true, Bool.false_eq_true, if_false, uv] <;>
        first | (refine mul_nonneg ?_ hXY.le; linarith) | (refine mul_nonpos_of_nonpos_of_nonneg ?_ hXY.le; linarith)
  · rintro ⟨x0, x1, y0, y1, hr, hf⟩
    obtain ⟨X, hX⟩ : ∃ X, X = x (i + 1) - x i := ⟨_, rfl⟩
    obtain ⟨Y, hY⟩ : ∃ Y, Y = y (j + 1) - y j := ⟨_, rfl⟩
    have hX0 : 0 < X := by rw [hX]; linarith
    have hY0 : 0 < Y := by rw [hY]; linarith
    have ex : x (i + 1) = x i + X := by rw [hX]; ring
    have ey : y (j + 1) = y j + Y := by rw [hY]; ring
    obtain ⟨u, hu⟩ : ∃ u, u = (p 0 - x i) / X := ⟨_, rfl⟩
    obtain ⟨v, hv⟩ : ∃ v, v = (p 1 - y j) / Y := ⟨_, rfl⟩
    have p0 : p 0 = x i + u * X := by rw [hu]; field_simp; ring
    have p1 : p 1 = y j + v * Y := by rw [hv]; field_simp; ring
    have hXY := mul_pos hX0 hY0
    have er : rise x y i j p = (u - v) * (X * Y) := by unfold rise; rw [p0, p1, ex, ey]; ring
    have ef : fall x y i j p = (u + v - 1) * (X * Y) := by unfold fall; rw [p0, p1, ex, ey]; ring
    have u0 : 0 ≤ u := by rw [hu]; exact div_nonneg (by linarith) hX0.le
    have u1 : u ≤ 1 := by rw [hu, div_le_one hX0]; linarith
    have v0 : 0 ≤ v := by rw [hv]; exact div_nonneg (by linarith) hY0.le
    have v1 : v ≤ 1 := by rw [hv, div_le_one hY0]; linarith
    rw [er] at hr
    rw [ef] at hf
    have sgn : ∀ s : K, (0 ≤ s * (X * Y) ↔ 0 ≤ s) ∧ (s * (X * Y) ≤ 0 ↔ s ≤ 0) := fun s =>
      ⟨mul_nonneg_iff_of_pos_right hXY, ⟨fun h => by by_contra hc; exact absurd h (not_le.2 (mul_pos (not_le.1 hc) hXY)), fun h => mul_nonpos_of_nonpos_of_nonneg h hXY.le⟩⟩
    simp only [(sgn _).1, (sgn _).2] at hr hf
    have fin : ∀ a b : K, 0 ≤ a → 0 ≤ b → a + b ≤ 1 →
        p 0 = a * (spot x y i j t 0).1 + b * (spot x y i j t 1).1 + (1 - a - b) * (spot x y i j t 2).1 →
        p 1 = a * (spot x y i j t 0).2 + b * (spot x y i j t 1).2 + (1 - a - b) * (spot x y i j t 2).2 →
        InHull (corner (dmesh sq x y nx ny) (simplex sq x y nx ny i j t)) p := by
      intro a b ha hb hab e0 e1
      refine ⟨![a, b, 1 - a - b], ?_, ?_, ?_⟩
      · intro k; fin_cases k
        · exact ha
        · exact hb
        · show 0 ≤ 1 - a - b; linarith
      · rw [Fin.sum_univ_three]
        show a + b + (1 - a - b) = 1
        ring
      · intro c
        rw [Fin.sum_univ_three, corner_spot hi hj, corner_spot hi hj, corner_spot hi hj]
        fin_cases c
        · exact e0
        · exact e1
    cases t <;> simp only [signs, if_true, Bool.false_eq_true, if_false] at hr hf
    · exact fin (1 - u - v) (u - v) (by linarith) (by linarith) (by linarith) (by rw [p0]; simp [spot, ex]; ring) (by rw [p1]; simp [spot, ey]; ring)
    · exact fin (1 - u - v) (v - u) (by linarith) (by linarith) (by linarith) (by rw [p0]; simp [spot, ex]; ring) (by rw [p1]; simp [spot, ey]; ring)
    · exact fin (u - v) (u + v - 1) (by linarith) (by linarith) (by linarith) (by rw [p0]; simp [spot, ex]; ring) (by rw [p1]; simp [spot, ey]; ring)
    · exact fin (v - u) (u + v - 1) (by linarith) (by linarith) (by linarith) (by rw [p0]; simp [spot, ex]; ring) (by rw [p1]; simp [spot, ey]; ring)

theorem mem_simplex (hi : i < nx) (hj : j < ny) (t : Tri) : simplex sq x y nx ny i j t ∈ (dmesh sq x y nx ny).cells :=
  mem_simplices.2 ⟨i, j, t, hi, hj, rfl⟩

/-- The box of the grid a number is in. -/
theorem rising_find {z : Nat → K} {n : Nat} (hn : 1 ≤ n) {q : K} (h0 : z 0 ≤ q) (h1 : q ≤ z n) : ∃ i < n, z i ≤ q ∧ q ≤ z (i + 1) := by
  induction n with
  | zero => omega
  | succ n ih =>
    rcases le_total (z n) q with h | h
    · exact ⟨n, by omega, h, h1⟩
    · rcases Nat.eq_zero_or_pos n with rfl | hp
      · exact ⟨0, by omega, h0, h1⟩
      · obtain ⟨i, hi, h2⟩ := ih hp h
        exact ⟨i, by omega, h2⟩

theorem rect_points (hnx : 1 ≤ nx) (hny : 1 ≤ ny) (hx : Box.Rising x nx) (hy : Box.Rising y ny) (p : Vec K 2) :
    (∃ c ∈ (dmesh sq x y nx ny).cells, InHull (corner (dmesh sq x y nx ny) c) p) ↔ inBounds (x 0) (x nx) (y 0) (y ny) p = true := by
  simp only [inBounds, decide_eq_true_eq]
  constructor
  · rintro ⟨c, hc, hp⟩
    obtain ⟨i, j, t, hi, hj, rfl⟩ := mem_simplices.1 hc
    obtain ⟨a, b, c, d, -⟩ := (hull_iff (hx i hi) (hy j hj) hi hj).1 hp
    exact ⟨(hx.le (Nat.zero_le i) hi.le).trans a, b.trans (hx.le hi le_rfl), (hy.le (Nat.zero_le j) hj.le).trans c, d.trans (hy.le hj le_rfl)⟩
  · rintro ⟨a, b, c, d⟩
    obtain ⟨i, hi, i0, i1⟩ := rising_find hnx a b
    obtain ⟨j, hj, j0, j1⟩ := rising_find hny c d
    have fin : ∀ t, (if (signs t).1 then 0 ≤ rise x y i j p else rise x y i j p ≤ 0) →
        (if (signs t).2 then 0 ≤ fall x y i j p else fall x y i j p ≤ 0) →
        ∃ c ∈ (dmesh sq x y nx ny).cells, InHull (corner (dmesh sq x y nx ny) c) p := fun t h1 h2 =>
      ⟨_, mem_simplex hi hj t, (hull_iff (hx i hi) (hy j hj) hi hj).2 ⟨i0, i1, j0, j1, h1, h2⟩⟩
    rcases le_total 0 (rise x y i j p) with h1 | h1 <;> rcases le_total 0 (fall x y i j p) with h2 | h2
    · exact fin .right h1 h2
    · exact fin .bottom h1 h2
    · exact fin .top h1 h2
    · exact fin .left h1 h2

/-! ### The sides -/

/-- The side of the box that belongs to a triangle. -/
def Tri.side : Tri → Rect.Side
  | .bottom => .bottom
  | .left => .left
  | .right => .right
  | .top => .top

/-- The triangle is at the boundary of the rectangle. -/
def AtSide (nx ny i j : Nat) : Tri → Prop
  | .bottom => j = 0
  | .left => i = 0
  | .right => i + 1 = nx
  | .top => j + 1 = ny

/-- The facet of the triangle that is a side of its box. -/
def sideLabel (i j : Nat) : Tri → Nat × Nat × Nat
  | .bottom => (i, j, 0)
  | .left => (i, j, 1)
  | .right => (i + 1, j, 1)
  | .top => (i, j + 1, 0)

/-- The side of the rectangle with the facet `F`. -/
def sideNo (nx : Nat) (F : Int) : Rect.Side :=
  let m := (F / 6).toNat
  if F % 6 = 1 then if m % (nx + 1) = 0 then .left else .right
  else if m / (nx + 1) = 0 then .bottom else .top

theorem sideNo_of (hnx : 1 ≤ nx) (hny : 1 ≤ ny) (hi : i < nx) (h : AtSide nx ny i j t) :
    sideNo nx (facetNo nx (sideLabel i j t)) = t.side := by
  have parts : ∀ {I J q : Nat}, I ≤ nx → q < 6 → facetNo nx (I, J, q) % 6 = q ∧
      (facetNo nx (I, J, q) / 6).toNat % (nx + 1) = I ∧ (facetNo nx (I, J, q) / 6).toNat / (nx + 1) = J := by
    intro I J q hI hq
    unfold facetNo
    have h1 : (6 * ((vertNo nx I J : Nat) : Int) + (q : Int)) / 6 = (vertNo nx I J : Int) := by omega
    have h2 : (J * (nx + 1) + I) % (nx + 1) = I := by rw [Nat.mul_comm, Nat.mul_add_mod]; exact Nat.mod_eq_of_lt (by omega)
    have h3 : (J * (nx + 1) + I) / (nx + 1) = J := by
      rw [Nat.mul_comm, Nat.mul_add_div (by omega), Nat.div_eq_of_lt (by omega), Nat.add_zero]
    refine ⟨by simp only; omega, ?_, ?_⟩ <;> simp only [h1, Int.toNat_natCast]
    · exact h2
    · exact h3
  unfold sideNo
  cases t <;> simp only [AtSide] at h
  · obtain ⟨a, b, c⟩ := parts (J := j) hi.le (by decide : 0 < 6)
    simp only [sideLabel, a, b, c, Tri.side]
    rw [h]
    rfl
  · obtain ⟨a, b, c⟩ := parts (J := j) hi.le (by decide : 1 < 6)
    simp only [sideLabel, a, b, c, Tri.side]
    rw [h]
    rfl
  · obtain ⟨a, b, c⟩ := parts (J := j) (by omega : i + 1 ≤ nx) (by decide : 1 < 6)
    simp only [sideLabel, a, b, c, Tri.side]
    rfl
  · obtain ⟨a, b, c⟩ := parts (J := j + 1) hi.le (by decide : 0 < 6)
    simp only [sideLabel, a, b, c, Tri.side]
    rfl

/-- Facets on the boundary of the mesh are on the boundary of the rectangle. -/
theorem outside_side {c : DSimplex K} {k : Nat} {F : Int} (h : Outside (dmesh sq x y nx ny) c k F) :
    ∃ i j t, i < nx ∧ j < ny ∧ c = simplex sq x y nx ny i j t ∧ k = 2 ∧ F = facetNo nx (sideLabel i j t) ∧ AtSide nx ny i j t := by
  obtain ⟨hc, hF, hone⟩ := h
  obtain ⟨i, j, t, hi, hj, rfl⟩ := mem_simplices.1 hc
  refine ⟨i, j, t, hi, hj, rfl, ?_⟩
  simp only [simplex, List.getElem?_map, Option.map_eq_some_iff] at hF
  obtain ⟨l, hl, rfl⟩ := hF
  have hk : k < 3 := by
    have := (List.getElem?_eq_some_iff.1 hl).1
    have e : (labels i j t).length = 3 := by cases t <;> rfl
    omega
  have other : ∀ {i' j' t'}, i' < nx → j' < ny → l ∈ labels i' j' t' → i' = i ∧ j' = j ∧ t' = t := by
    intro i' j' t' hi' hj' hl'
    exact triNo_inj hi' hi (hone _ (mem_simplex hi' hj' t') (List.mem_map_of_mem hl'))
  cases t <;> interval_cases k <;> cases hl
  · have := (other hi hj (t' := .right) (by simp [labels])).2.2; cases this
  · have := (other hi hj (t' := .left) (by simp [labels])).2.2; cases this
  · refine ⟨rfl, rfl, ?_⟩
    by_contra h0
    obtain ⟨J, rfl⟩ := Nat.exists_eq_add_of_le' (by simp only [AtSide] at h0; omega : 1 ≤ j)
    have := (other hi (by omega : J < ny) (t' := .top) (by simp [labels])).2.2; cases this
  · have := (other hi hj (t' := .top) (by simp [labels])).2.2; cases this
  · have := (other hi hj (t' := .bottom) (by simp [labels])).2.2; cases this
  · refine ⟨rfl, rfl, ?_⟩
    by_contra h0
    obtain ⟨I, rfl⟩ := Nat.exists_eq_add_of_le' (by simp only [AtSide] at h0; omega : 1 ≤ i)
    have := (other (by omega : I < nx) hj (t' := .right) (by simp [labels])).2.2; cases this
  · have := (other hi hj (t' := .top) (by simp [labels])).2.2; cases this
  · have := (other hi hj (t' := .bottom) (by simp [labels])).2.2; cases this
  · refine ⟨rfl, rfl, ?_⟩
    by_contra h0
    simp only [AtSide] at h0
    have := (other (by omega : i + 1 < nx) hj (t' := .left) (by simp [labels])).2.2; cases this
  · have := (other hi hj (t' := .right) (by simp [labels])).2.2; cases this
  · have := (other hi hj (t' := .left) (by simp [labels])).2.2; cases this
  · refine ⟨rfl, rfl, ?_⟩
    by_contra h0
    simp only [AtSide] at h0
    have := (other hi (by omega : j + 1 < ny) (t' := .bottom) (by simp [labels])).2.2; cases this

theorem side_outside (hi : i < nx) (hj : j < ny) (h : AtSide nx ny i j t) :
    Outside (dmesh sq x y nx ny) (simplex sq x y nx ny i j t) 2 (facetNo nx (sideLabel i j t)) := by
  refine ⟨mem_simplex hi hj t, by cases t <;> rfl, ?_⟩
  intro c' hc' hF
  obtain ⟨i', j', t', hi', hj', rfl⟩ := mem_simplices.1 hc'
  obtain ⟨l', hl', e⟩ := List.mem_map.1 hF
  obtain ⟨b1, b2⟩ := label_bound hi' hl'
  obtain ⟨a1, a2⟩ := label_bound (l := sideLabel i j t) hi (by cases t <;> simp [labels, sideLabel] : sideLabel i j t ∈ labels i j t)
  obtain rfl := facetNo_inj b1 b2 a1 a2 e
  have : (i', j', t') = (i, j, t) := by
    cases t <;> cases t' <;> simp [labels, sideLabel] at hl' <;> simp only [AtSide] at h <;> simp <;> omega
  simp only [Prod.mk.injEq] at this
  obtain ⟨rfl, rfl, rfl⟩ := this
  rfl

/-- The outward normals of the sides. -/
def outN : Rect.Side → Vec K 2
  | .left => ![-1, 0]
  | .right => ![1, 0]
  | .bottom => ![0, -1]
  | .top => ![0, 1]

/-- A square root, where it is needed: it is positive, and exact for squares. -/
structure Root (sq : K → K) : Prop where
  pos : ∀ s, 0 < s → 0 < sq s
  exact : ∀ s, 0 < s → sq (s * s) = s

theorem normal_two (hsq : Root sq) (hx : x i < x (i + 1)) (hy : y j < y (j + 1)) (hi : i < nx) (hj : j < ny) :
    cutNormal (by decide : 2 ≤ 3) ((simplex sq x y nx ny i j t).normal 2) = outN t.side := by
  have c0 := corner_spot (sq := sq) (x := x) (y := y) (t := t) hi hj 0
  have c1 := corner_spot (sq := sq) (x := x) (y := y) (t := t) hi hj 1
  have c2 := corner_spot (sq := sq) (x := x) (y := y) (t := t) hi hj 2
  have e : (simplex sq x y nx ny i j t).normal 2 = triNormal sq
      (corner (dmesh sq x y nx ny) (simplex sq x y nx ny i j t) 2) (corner (dmesh sq x y nx ny) (simplex sq x y nx ny i j t) 0)
      (corner (dmesh sq x y nx ny) (simplex sq x y nx ny i j t) 1) := rfl
  rw [e, c0, c1, c2]
  obtain ⟨X, hX⟩ : ∃ X, X = x (i + 1) - x i := ⟨_, rfl⟩
  obtain ⟨Y, hY⟩ : ∃ Y, Y = y (j + 1) - y j := ⟨_, rfl⟩
  have hX0 : 0 < X := by rw [hX]; linarith
  have hY0 : 0 < Y := by rw [hY]; linarith
  have ex : x (i + 1) = x i + X := by rw [hX]; ring
  have ey : y (j + 1) = y j + Y := by rw [hY]; ring
  have key : ∀ {a b c : K × K} {n : Vec K 2} {s : K}, 0 < s → (n 0 * n 0 + n 1 * n 1 = 1) →
      dot (![c.1, c.2] - ![b.1, b.2] : Vec K 2) (![c.1, c.2] - ![b.1, b.2]) • (![c.1, c.2] - ![a.1, a.2] : Vec K 2) -
        dot (![c.1, c.2] - ![a.1, a.2] : Vec K 2) (![c.1, c.2] - ![b.1, b.2]) • (![c.1, c.2] - ![b.1, b.2] : Vec K 2) = s • n →
      cutNormal (by decide : 2 ≤ 3) (triNormal sq ![a.1, a.2] ![b.1, b.2] ![c.1, c.2]) = n := by
    intro a b c n s hs hn h
    have hd : dot (s • n) (s • n) = s * s := by
      rw [dotP]
      simp only [Pi.smul_apply, smul_eq_mul]
      linear_combination s * s * hn
    have hne := hs.ne'
    funext m
    unfold triNormal
    dsimp only
    rw [h, hd, hsq.exact s hs]
    fin_cases m <;> simp [cutNormal, hne]
  cases t
  · refine key (s := X * X * (Y / 2)) (by positivity) (by simp [outN, Tri.side]) ?_
    funext m
    rw [dotP, dotP]
    fin_cases m <;> simp [outN, Tri.side, spot, ex, ey] <;> first | ring1 | (left; ring1)
  · refine key (s := Y * Y * (X / 2)) (by positivity) (by simp [outN, Tri.side]) ?_
    funext m
    rw [dotP, dotP]
    fin_cases m <;> simp [outN, Tri.side, spot, ex, ey] <;> first | ring1 | (left; ring1)
  · refine key (s := Y * Y * (X / 2)) (by positivity) (by simp [outN, Tri.side]) ?_
    funext m
    rw [dotP, dotP]
    fin_cases m <;> simp [outN, Tri.side, spot, ex, ey] <;> first | ring1 | (left; ring1)
  · refine key (s := X * X * (Y / 2)) (by positivity) (by simp [outN, Tri.side]) ?_
    funext m
    rw [dotP, dotP]
    fin_cases m <;> simp [outN, Tri.side, spot, ex, ey] <;> first | ring1 | (left; ring1)

theorem rect_walls (hsq : Root sq) (hnx : 1 ≤ nx) (hny : 1 ≤ ny) (hx : Box.Rising x nx) (hy : Box.Rising y ny) (m : Rect.Side → Bool) :
    FlatWalls (by decide : 2 ≤ 3) (dmesh sq x y nx ny) (walls (x 0) (x nx) (y 0) (y ny) m) (sideNo nx) := by
  have hn : ∀ sd, (walls (x 0) (x nx) (y 0) (y ny) m sd).n = outN sd := fun sd => by cases sd <;> rfl
  refine ⟨?_, ?_, ?_⟩
  · intro c k F h
    obtain ⟨i, j, t, hi, hj, rfl, rfl, rfl, hs⟩ := outside_side h
    rw [normal_two hsq (hx i hi) (hy j hj) hi hj, sideNo_of hnx hny hi hs, hn]
  · intro c k F h
    rw [hn, dotP]
    cases sideNo nx F <;> simp [outN]
  · intro c k F h q hq hp
    obtain ⟨i, j, t, hi, hj, rfl, rfl, rfl, hs⟩ := outside_side h
    rw [sideNo_of hnx hny hi hs]
    have h0 := hp 0 (by simp [onFacet])
    rw [normal_two hsq (hx i hi) (hy j hj) hi hj, corner_spot hi hj, dotP] at h0
    cases t <;> simp only [AtSide] at hs <;> simp [outN, Tri.side, spot, walls, hs] at h0 ⊢ <;> linarith

theorem rect_convex (hsq : Root sq) (hnx : 1 ≤ nx) (hny : 1 ≤ ny) (hx : Box.Rising x nx) (hy : Box.Rising y ny) :
    ConvexDomain (by decide : 2 ≤ 3) (dmesh sq x y nx ny) (inBounds (x 0) (x nx) (y 0) (y ny)) := by
  refine ⟨fun c hc p hp => (rect_points hnx hny hx hy p).1 ⟨c, hc, hp⟩, ?_⟩
  intro c hc k F hF hone u hu p hp
  obtain ⟨i, j, t, hi, hj, rfl, rfl, rfl, hs⟩ := outside_side ⟨hc, hF, hone⟩
  simp only [inBounds, decide_eq_true_eq] at hp
  obtain ⟨p0, p1, p2, p3⟩ := hp
  rw [normal_two hsq (hx i hi) (hy j hj) hi hj, corner_spot hi hj, dotP]
  have hu' : u = 0 ∨ u = 1 := by
    fin_cases u
    · exact .inl rfl
    · exact .inr rfl
    · simp [onFacet] at hu
  rcases hu' with rfl | rfl <;> cases t <;> simp only [AtSide] at hs <;> simp [outN, Tri.side, spot, hs] <;> assumption

/-! ### How many triangles are on a line -/

theorem rect_atMost (hsq : Root sq) (hx : Box.Rising x nx) (hy : Box.Rising y ny) {n : Nat} (hn : 4 * (nx + ny - 1) = n) :
    AtMost (by decide : 2 ≤ 3) (dmesh sq x y nx ny) n := by
  subst hn
  have hT := rect_triangulation hsq.pos hx hy
  refine atMost_boxes hT (by decide : 0 < 4) fun d => ?_
  have hbox : ∀ {i j : Nat} {t : Tri}, (simplex sq x y nx ny i j t).index / ((4 : Nat) : Int) = ((j * nx + i : Nat) : Int) := by
    intro i j t
    exact box_no (B := 4) (by cases t <;> decide)
  refine ⟨fun b => (if 0 ≤ d 0 then (nx : Int) - 1 - ((b.toNat % nx : Nat) : Int) else ((b.toNat % nx : Nat) : Int)) +
    (if 0 ≤ d 1 then (ny : Int) - 1 - ((b.toNat / nx : Nat) : Int) else ((b.toNat / nx : Nat) : Int)), ?_, ?_⟩
  · intro c hc
    obtain ⟨i, j, t, hi, hj, rfl⟩ := mem_simplices.1 hc
    obtain ⟨a, b⟩ := box_decode (j := j) hi
    simp only [hbox, Int.toNat_natCast, a, b]
    split <;> split <;> constructor <;> omega
  · intro c hc c' hc' hA hne
    obtain ⟨i, j, t, hi, hj, rfl⟩ := mem_simplices.1 hc
    obtain ⟨i', j', t', hi', hj', rfl⟩ := mem_simplices.1 hc'
    obtain ⟨a, b⟩ := box_decode (j := j) hi
    obtain ⟨a', b'⟩ := box_decode (j := j') hi'
    simp only [hbox, Int.toNat_natCast, a, b, a', b'] at hne ⊢
    obtain ⟨-, k, F, hk, hF, hpos⟩ := hA
    simp only [simplex, List.getElem?_map, Option.map_eq_some_iff] at hk
    obtain ⟨l, hl, rfl⟩ := hk
    obtain ⟨l', hl', hee⟩ := List.mem_map.1 hF
    obtain ⟨a1, a2⟩ := label_bound hi (List.mem_of_getElem? hl)
    obtain ⟨b1, b2⟩ := label_bound hi' hl'
    obtain rfl := facetNo_inj b1 b2 a1 a2 hee
    obtain ⟨rfl, hle⟩ := shared_side hl hl' (fun hb => hne (by rw [hb.1, hb.2]))
    have hpos' : 0 < dot (outN t.side) d := by
      have := normal_two (t := t) hsq (hx i hi) (hy j hj) hi hj
      rw [← this]
      exact hpos
    rw [dotP] at hpos'
    cases t <;> simp [outN, Tri.side] at hpos' <;> simp only [sideEdge, Leads] at hle
    · obtain ⟨rfl, rfl⟩ : i = i' ∧ j = j' + 1 := by omega
      simp only [not_le.2 hpos', if_false]
      split <;> push_cast <;> omega
    · obtain ⟨rfl, rfl⟩ : i = i' + 1 ∧ j = j' := by omega
      simp only [not_le.2 hpos', if_false]
      split <;> push_cast <;> omega
    · obtain ⟨rfl, rfl⟩ : i' = i + 1 ∧ j = j' := by omega
      simp only [hpos'.le, if_true]
      split <;> push_cast <;> omega
    · obtain ⟨rfl, rfl⟩ : i = i' ∧ j' = j + 1 := by omega
      simp only [hpos'.le, if_true]
      split <;> push_cast <;> omega

end Crossed
end Dt
