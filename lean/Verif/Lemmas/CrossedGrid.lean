import Verif.Lemmas.Crossed

/-!
# Polar grids with crossed diagonals
-/

namespace Dt
namespace Crossed
open Real Dt.Topology Spec Rect Sector

variable {R T M : Nat → ℝ} {nr nt i j i' j' : Nat} {x y : Nat → ℝ} {t t' : Tri} {f : Vec ℝ 2 → Vec ℝ 2} {sq : ℝ → ℝ}

/-- A point of the cone between two rays. -/
noncomputable def cone (T : Nat → ℝ) (j : Nat) (a c : ℝ) : Vec ℝ 2 := fun k => a * dir (T j) k + c * dir (T (j + 1)) k

/-- `f` puts the middle of box `(i, j)` on the line that halves the box, at the height `M i`. -/
def DrawsMid (f : Vec ℝ 2 → Vec ℝ 2) (x y : Nat → ℝ) (M T : Nat → ℝ) (nr nt : Nat) : Prop :=
  ∀ i < nr, ∀ j < nt, f ![(x i + x (i + 1)) / 2, (y j + y (j + 1)) / 2] = cone T j (M i / 2) (M i / 2)

/-- The coordinates in the cone of the vertices of a triangle. -/
noncomputable def place (r r' m : ℝ) : Tri → Fin 3 → ℝ × ℝ
  | .bottom => ![(r, 0), (r', 0), (m / 2, m / 2)]
  | .left => ![(r, 0), (0, r), (m / 2, m / 2)]
  | .right => ![(r', 0), (0, r'), (m / 2, m / 2)]
  | .top => ![(0, r), (0, r'), (m / 2, m / 2)]

theorem coord_grid {v w : Nat} (hv : v ≤ nr) (hw : w ≤ nt) : coord x y nr nt (vertNo nr v w) = ![x v, y w] := by
  have h1 : (w * (nr + 1) + v) % (nr + 1) = v := by rw [Nat.mul_comm, Nat.mul_add_mod]; exact Nat.mod_eq_of_lt (by omega)
  have h2 : (w * (nr + 1) + v) / (nr + 1) = w := by
    rw [Nat.mul_comm, Nat.mul_add_div (by omega), Nat.div_eq_of_lt (by omega), Nat.add_zero]
  have h3 : vertNo nr v w < (nr + 1) * (nt + 1) := by
    unfold vertNo
    have : w * (nr + 1) ≤ nt * (nr + 1) := Nat.mul_le_mul_right _ hw
    have e : (nr + 1) * (nt + 1) = nt * (nr + 1) + (nr + 1) := by ring
    omega
  unfold coord
  rw [if_pos h3]
  unfold vertNo
  rw [h1, h2]

theorem coord_mid (hi : i < nr) : coord x y nr nt (midNo nr nt i j) = ![(x i + x (i + 1)) / 2, (y j + y (j + 1)) / 2] := by
  have h1 : (j * nr + i) % nr = i := by rw [Nat.mul_comm, Nat.mul_add_mod]; exact Nat.mod_eq_of_lt hi
  have h2 : (j * nr + i) / nr = j := by
    rw [Nat.mul_comm, Nat.mul_add_div (by omega), Nat.div_eq_of_lt hi, Nat.add_zero]
  have h3 : ¬ midNo nr nt i j < (nr + 1) * (nt + 1) := by unfold midNo; omega
  have h4 : midNo nr nt i j - (nr + 1) * (nt + 1) = j * nr + i := by unfold midNo; omega
  unfold coord
  rw [if_neg h3, h4]
  dsimp only
  rw [h1, h2]

theorem drawn (hf : Draws f x y R T nr nt) (hm : DrawsMid f x y M T nr nt) (hi : i < nr) (hj : j < nt) (k : Fin 3) :
    f (corner (dmesh sq x y nr nt) (simplex sq x y nr nt i j t) k) =
      cone T j (place (R i) (R (i + 1)) (M i) t k).1 (place (R i) (R (i + 1)) (M i) t k).2 := by
  have g0 : f (coord x y nr nt (vertNo nr i j)) = cone T j (R i) 0 := by
    rw [coord_grid hi.le hj.le, hf i hi.le j hj.le]; funext m; simp [polar, cone]
  have g1 : f (coord x y nr nt (vertNo nr (i + 1) j)) = cone T j (R (i + 1)) 0 := by
    rw [coord_grid hi hj.le, hf (i + 1) hi j hj.le]; funext m; simp [polar, cone]
  have g2 : f (coord x y nr nt (vertNo nr i (j + 1))) = cone T j 0 (R i) := by
    rw [coord_grid hi.le hj, hf i hi.le (j + 1) hj]; funext m; simp [polar, cone]
  have g3 : f (coord x y nr nt (vertNo nr (i + 1) (j + 1))) = cone T j 0 (R (i + 1)) := by
    rw [coord_grid hi hj, hf (i + 1) hi (j + 1) hj]; funext m; simp [polar, cone]
  have g4 : f (coord x y nr nt (midNo nr nt i j)) = cone T j (M i / 2) (M i / 2) := by
    rw [coord_mid hi, hm i hi j hj]
  cases t <;> fin_cases k <;> first | exact g0 | exact g1 | exact g2 | exact g3 | exact g4

theorem area_cone (a0 c0 a1 c1 a2 c2 : ℝ) : area (cone T j a0 c0) (cone T j a1 c1) (cone T j a2 c2) =
    ((a1 - a0) * (c2 - c0) - (c1 - c0) * (a2 - a0)) * sin (T (j + 1) - T j) := by
  simp only [area, cone, dir, sin_sub, Matrix.cons_val_zero, Matrix.cons_val_one]
  ring

/-- Twice the area of a triangle, in units of the cone. -/
noncomputable def size (r r' m : ℝ) : Tri → ℝ
  | .bottom => (r' - r) * (m / 2)
  | .left => r * (r - m)
  | .right => r' * (r' - m)
  | .top => (r - r') * (m / 2)

theorem area_drawn (hf : Draws f x y R T nr nt) (hm : DrawsMid f x y M T nr nt) (hi : i < nr) (hj : j < nt) :
    area (f (corner (dmesh sq x y nr nt) (simplex sq x y nr nt i j t) 0)) (f (corner (dmesh sq x y nr nt) (simplex sq x y nr nt i j t) 1))
      (f (corner (dmesh sq x y nr nt) (simplex sq x y nr nt i j t) 2)) =
      size (R i) (R (i + 1)) (M i) t * sin (T (j + 1) - T j) := by
  rw [drawn hf hm hi hj, drawn hf hm hi hj, drawn hf hm hi hj, area_cone]
  cases t <;> simp only [place, size, Matrix.cons_val_zero, Matrix.cons_val_one, Matrix.cons_val] <;> ring

/-- The lines from the corners of a box to its middle. -/
def line0 (r m a c : ℝ) : ℝ := (a + c - m) * r - (a - c) * (r - m)
def line2 (r m a c : ℝ) : ℝ := (a + c - m) * r + (a - c) * (r - m)

/-- The inside of a triangle in the coordinates of the cone. -/
def Side (r r' m a c : ℝ) : Tri → Prop
  | .bottom => c < a ∧ 0 < line0 r m a c ∧ line0 r' m a c < 0
  | .left => a + c < m ∧ line0 r m a c < 0 ∧ line2 r m a c < 0
  | .right => m < a + c ∧ 0 < line0 r' m a c ∧ 0 < line2 r' m a c
  | .top => a < c ∧ 0 < line2 r m a c ∧ line2 r' m a c < 0

theorem side_unique {r r' m a c : ℝ} (h : Side r r' m a c t) (h' : Side r r' m a c t') : t = t' := by
  cases t <;> cases t' <;> first | rfl | (obtain ⟨h1, h2, h3⟩ := h; obtain ⟨h1', h2', h3'⟩ := h'; exfalso; linarith)

structure Within (R T M : Nat → ℝ) (i j : Nat) (t : Tri) (p : Vec ℝ 2) (a c : ℝ) : Prop where
  apos : 0 < a
  cpos : 0 < c
  lo : R i < a + c
  hi : a + c < R (i + 1)
  side : Side (R i) (R (i + 1)) (M i) a c t
  eq : ∀ k, p k = a * dir (T j) k + c * dir (T (j + 1)) k

/-- The middle of every box is between the two chords. -/
def Inside (R M : Nat → ℝ) (nr : Nat) : Prop := ∀ i < nr, R i < M i ∧ M i < R (i + 1)

/-- A combination of the vertices of a triangle, in the coordinates of the cone. -/
noncomputable def combine (r r' m : ℝ) (t : Tri) (w : Fin 3 → ℝ) : ℝ × ℝ :=
  (w 0 * (place r r' m t 0).1 + w 1 * (place r r' m t 1).1 + w 2 * (place r r' m t 2).1,
    w 0 * (place r r' m t 0).2 + w 1 * (place r r' m t 1).2 + w 2 * (place r r' m t 2).2)

theorem combine_pos {r r' m : ℝ} (hr : 0 < r) (h1 : r < m) (h2 : m < r') {w : Fin 3 → ℝ} (hw : ∀ k, 0 < w k)
    (hs : w 0 + w 1 + w 2 = 1) (t : Tri) :
    0 < (combine r r' m t w).1 ∧ 0 < (combine r r' m t w).2 ∧ r < (combine r r' m t w).1 + (combine r r' m t w).2 ∧
      (combine r r' m t w).1 + (combine r r' m t w).2 < r' ∧ Side r r' m (combine r r' m t w).1 (combine r r' m t w).2 t := by
  have w0 := hw 0
  have w1 := hw 1
  have w2 := hw 2
  have hm : 0 < m := by linarith
  have hr' : 0 < r' := by linarith
  have b0 := mul_pos w0 hr
  have b1 := mul_pos w1 hr
  have c0 := mul_pos w0 hr'
  have c1 := mul_pos w1 hr'
  have b2 := mul_pos w2 hm
  have d1 := mul_pos w1 (sub_pos.2 (h1.trans h2))
  have d0 := mul_pos w0 (sub_pos.2 (h1.trans h2))
  have e1 := mul_pos w2 (sub_pos.2 h1)
  have e2 := mul_pos w2 (sub_pos.2 h2)
  have k1 := mul_pos hm (sub_pos.2 (h1.trans h2))
  have k2 := mul_pos hr (sub_pos.2 h1)
  have k3 := mul_pos hr' (sub_pos.2 h2)
  rw [combine]
  clear hw
  generalize w 0 = u at *
  generalize w 1 = v at *
  generalize w 2 = z at *
  obtain rfl : u = 1 - v - z := by linarith
  cases t <;> simp only [place, Side, line0, line2, Matrix.cons_val_zero, Matrix.cons_val_one, Matrix.cons_val]
  · have q0 := mul_pos w0 k1
    have q1 := mul_pos w1 k1
    refine ⟨by linarith, by linarith, ?_, ?_, by linarith, ?_, ?_⟩ <;> linarith
  · have q0 := mul_pos w0 k2
    have q1 := mul_pos w1 k2
    refine ⟨by linarith, by linarith, ?_, ?_, ?_, ?_, ?_⟩ <;> nlinarith
  · have q0 := mul_pos w0 k3
    have q1 := mul_pos w1 k3
    refine ⟨by linarith, by linarith, ?_, ?_, ?_, ?_, ?_⟩ <;> nlinarith
  · have q0 := mul_pos w0 k1
    have q1 := mul_pos w1 k1
    refine ⟨by linarith, by linarith, ?_, ?_, by linarith, ?_, ?_⟩ <;> linarith

theorem combine_nonneg {r r' m : ℝ} (hr : 0 < r) (h1 : r < m) (h2 : m < r') {w : Fin 3 → ℝ} (hw : ∀ k, 0 ≤ w k)
    (hs : w 0 + w 1 + w 2 = 1) (t : Tri) :
    0 ≤ (combine r r' m t w).1 ∧ 0 ≤ (combine r r' m t w).2 ∧ r ≤ (combine r r' m t w).1 + (combine r r' m t w).2 ∧
      (combine r r' m t w).1 + (combine r r' m t w).2 ≤ r' := by
  have w0 := hw 0
  have w1 := hw 1
  have w2 := hw 2
  have hm : 0 < m := by linarith
  have hr' : 0 < r' := by linarith
  have b0 := mul_nonneg w0 hr.le
  have b1 := mul_nonneg w1 hr.le
  have c0 := mul_nonneg w0 hr'.le
  have c1 := mul_nonneg w1 hr'.le
  have b2 := mul_nonneg w2 hm.le
  have d1 := mul_nonneg w1 (sub_pos.2 (h1.trans h2)).le
  have d0 := mul_nonneg w0 (sub_pos.2 (h1.trans h2)).le
  have e1 := mul_nonneg w2 (sub_pos.2 h1).le
  have e2 := mul_nonneg w2 (sub_pos.2 h2).le
  rw [combine]
  clear hw
  generalize w 0 = u at *
  generalize w 1 = v at *
  generalize w 2 = z at *
  obtain rfl : u = 1 - v - z := by linarith
  cases t <;> simp only [place, Matrix.cons_val_zero, Matrix.cons_val_one, Matrix.cons_val] <;>
    refine ⟨by linarith, by linarith, ?_, ?_⟩ <;> linarith

/-- A combination of the vertices of a triangle. -/
theorem combine_eq (hf : Draws f x y R T nr nt) (hm : DrawsMid f x y M T nr nt) (hi : i < nr) (hj : j < nt) (w : Fin 3 → ℝ) (k : Fin 2) :
    ∑ n : Fin (2 + 1), w n * f (corner (dmesh sq x y nr nt) (simplex sq x y nr nt i j t) n) k =
      (combine (R i) (R (i + 1)) (M i) t w).1 * dir (T j) k + (combine (R i) (R (i + 1)) (M i) t w).2 * dir (T (j + 1)) k := by
  have e : ∑ n : Fin (2 + 1), w n * f (corner (dmesh sq x y nr nt) (simplex sq x y nr nt i j t) n) k =
      ∑ n : Fin 3, w n * cone T j (place (R i) (R (i + 1)) (M i) t n).1 (place (R i) (R (i + 1)) (M i) t n).2 k :=
    Finset.sum_congr rfl fun n _ => by rw [drawn hf hm hi hj n]
  rw [e, Fin.sum_univ_three]
  simp only [combine, cone]
  ring

theorem within (h : Polar R T nr nt) (hM : Inside R M nr) (hf : Draws f x y R T nr nt) (hm : DrawsMid f x y M T nr nt)
    (hi : i < nr) (hj : j < nt) {p : Vec ℝ 2}
    (hp : InInterior (fun k => f (corner (dmesh sq x y nr nt) (simplex sq x y nr nt i j t) k)) p) :
    ∃ a c, Within R T M i j t p a c := by
  obtain ⟨w, hw, hsum, hpe⟩ := hp
  rw [Fin.sum_univ_three] at hsum
  obtain ⟨n1, n2⟩ := hM i hi
  obtain ⟨q1, q2, q3, q4, q5⟩ := combine_pos (h.posAt hi.le) n1 n2 hw hsum t
  exact ⟨_, _, q1, q2, q3, q4, q5, fun k => (hpe k).trans (combine_eq hf hm hi hj w k)⟩

theorem within_box (h : Polar R T nr nt) (hj : j < nt) (hj' : j' < nt) {p : Vec ℝ 2}
    {a c a' c' : ℝ} (w : Within R T M i j t p a c) (w' : Within R T M i' j' t' p a' c') : j = j' := by
  obtain ⟨r, v, hr, hv1, hv2, hv⟩ := Sector.between (h.angle j hj) (h.half j hj) w.apos w.cpos
  obtain ⟨r', v', hr', hv1', hv2', hv'⟩ := Sector.between (h.angle j' hj') (h.half j' hj') w'.apos w'.cpos
  have l1 := Sector.mono_le h.angle (Nat.zero_le j) hj.le
  have l2 := Sector.mono_le h.angle (Nat.succ_le_of_lt hj) le_rfl
  have l1' := Sector.mono_le h.angle (Nat.zero_le j') hj'.le
  have l2' := Sector.mono_le h.angle (Nat.succ_le_of_lt hj') le_rfl
  have ht := h.turn
  have hvv : v = v' := polar_unique hr hr' (by linarith) (by linarith) (fun k => by
    rw [← hv k, ← hv' k, ← w.eq k, ← w'.eq k])
  subst hvv
  rcases lt_trichotomy j j' with hlt | he | hlt
  · have := Sector.mono_le h.angle (Nat.succ_le_of_lt hlt) hj'.le
    linarith
  · exact he
  · have := Sector.mono_le h.angle (Nat.succ_le_of_lt hlt) hj.le
    linarith

theorem crossed_disjoint (h : Polar R T nr nt) (hi : i < nr) (hj : j < nt) (hi' : i' < nr) (hj' : j' < nt) {p : Vec ℝ 2}
    {a c a' c' : ℝ} (w : Within R T M i j t p a c) (w' : Within R T M i' j' t' p a' c') : i = i' ∧ j = j' ∧ t = t' := by
  obtain rfl := within_box h hj hj' w w'
  obtain ⟨rfl, rfl⟩ := dir_indep (h.angle j hj) (h.half j hj) (fun k => (w.eq k).symm.trans (w'.eq k))
  have hii : i = i' := by
    have a1 := w.lo
    have a2 := w.hi
    have a3 := w'.lo
    have a4 := w'.hi
    rcases lt_trichotomy i i' with hlt | he | hlt
    · have := Sector.mono_le h.radius (Nat.succ_le_of_lt hlt) hi'.le
      linarith
    · exact he
    · have := Sector.mono_le h.radius (Nat.succ_le_of_lt hlt) hi.le
      linarith
  subst hii
  exact ⟨rfl, rfl, side_unique w.side w'.side⟩

theorem sin_step (h : Polar R T nr nt) (hj : j < nt) : 0 < sin (T (j + 1) - T j) :=
  sin_pos_of_pos_of_lt_pi (by linarith [h.angle j hj]) (h.half j hj)

/-- A crossed polar grid is a triangulation if the middles of the boxes are inside. -/
theorem crossed_triangulation (h : Polar R T nr nt) (hM : Inside R M nr) (hf : Draws f x y R T nr nt)
    (hm : DrawsMid f x y M T nr nt) : Triangulation (by decide : 2 ≤ 3) (redraw sqrt f (dmesh sq x y nr nt)) := by
  refine redraw_triangulation (fun u hu => sqrt_pos.2 hu) (dmesh_frame sq x y nr nt) ?_ ?_
  · intro c hc
    obtain ⟨i, j, t, hi, hj, rfl⟩ := mem_simplices.1 hc
    rw [area_drawn hf hm hi hj]
    have h0 := h.posAt (i := i) hi.le
    have h1 := h.posAt (i := i + 1) hi
    obtain ⟨n1, n2⟩ := hM i hi
    refine mul_ne_zero ?_ (sin_step h hj).ne'
    cases t <;> simp only [size]
    · exact mul_ne_zero (by linarith) (by linarith)
    · exact mul_ne_zero (by linarith) (by linarith)
    · exact mul_ne_zero (by linarith) (by linarith)
    · exact mul_ne_zero (by linarith) (by linarith)
  · rintro c hc c' hc' hne p ⟨hp, hp'⟩
    obtain ⟨i, j, t, hi, hj, rfl⟩ := mem_simplices.1 hc
    obtain ⟨i', j', t', hi', hj', rfl⟩ := mem_simplices.1 hc'
    obtain ⟨a, c, w⟩ := within h hM hf hm hi hj hp
    obtain ⟨a', c', w'⟩ := within h hM hf hm hi' hj' hp'
    obtain ⟨rfl, rfl, rfl⟩ := crossed_disjoint h hi hj hi' hj' w w'
    exact hne rfl

/-- What is in a box is in one of its triangles. -/
theorem box_hull (h : Polar R T nr nt) (hM : Inside R M nr) (hf : Draws f x y R T nr nt) (hm : DrawsMid f x y M T nr nt)
    (hi : i < nr) (hj : j < nt) {p : Vec ℝ 2} {a c : ℝ}
    (ha : 0 ≤ a) (hc : 0 ≤ c) (hlo : R i ≤ a + c) (hhi : a + c ≤ R (i + 1))
    (hp : ∀ k, p k = a * dir (T j) k + c * dir (T (j + 1)) k) :
    ∃ t, InHull (fun k => f (corner (dmesh sq x y nr nt) (simplex sq x y nr nt i j t) k)) p := by
  have h0 := h.posAt (i := i) hi.le
  have h1 := h.posAt (i := i + 1) hi
  obtain ⟨n1, n2⟩ := hM i hi
  have mk : ∀ (t : Tri) (w : Fin 3 → ℝ), (∀ k, 0 ≤ w k) → w 0 + w 1 + w 2 = 1 → combine (R i) (R (i + 1)) (M i) t w = (a, c) →
      ∃ t, InHull (fun k => f (corner (dmesh sq x y nr nt) (simplex sq x y nr nt i j t) k)) p := by
    intro t w hw hs he
    refine ⟨t, w, hw, by rw [Fin.sum_univ_three]; exact hs, fun m => ?_⟩
    refine (hp m).trans (Eq.symm ?_)
    rw [combine_eq hf hm hi hj w m, he]
  have three : ∀ {u v w : ℝ}, 0 ≤ u → 0 ≤ v → 0 ≤ w → ∀ k, 0 ≤ (![u, v, w] : Fin 3 → ℝ) k := by
    intro u v w hu hv hw k
    fin_cases k
    · exact hu
    · exact hv
    · exact hw
  generalize R i = r at *
  generalize R (i + 1) = r' at *
  generalize M i = m at *
  have hm0 : 0 < m := by linarith
  have d1 : 0 < r' - r := by linarith
  have d2 : 0 < m - r := by linarith
  have d3 : 0 < r' - m := by linarith
  have ne1 := d1.ne'
  have ne2 := d2.ne'
  have ne3 := d3.ne'
  have ne4 := hm0.ne'
  have ne5 := h0.ne'
  have ne6 := h1.ne'
  have cb : 0 ≤ line0 r m a c → line0 r' m a c ≤ 0 → ∃ t, InHull (fun k => f (corner (dmesh sq x y nr nt) (simplex sq x y nr nt i j t) k)) p := by
    intro q0 q1
    refine mk .bottom ![-line0 r' m a c / (m * (r' - r)), line0 r m a c / (m * (r' - r)), 2 * c / m]
      (three (div_nonneg (by linarith) (by positivity)) (div_nonneg q0 (by positivity)) (by positivity)) ?_ ?_
    · simp only [Matrix.cons_val_zero, Matrix.cons_val_one, Matrix.cons_val, line0]
      field_simp
      ring
    · simp only [combine, place, Matrix.cons_val_zero, Matrix.cons_val_one, Matrix.cons_val, line0, Prod.mk.injEq]
      constructor <;> (field_simp; try ring)
  have cl : line0 r m a c ≤ 0 → line2 r m a c ≤ 0 → ∃ t, InHull (fun k => f (corner (dmesh sq x y nr nt) (simplex sq x y nr nt i j t) k)) p := by
    intro q0 q1
    refine mk .left ![-line2 r m a c / (2 * r * (m - r)), -line0 r m a c / (2 * r * (m - r)), (a + c - r) / (m - r)]
      (three (div_nonneg (by linarith) (by positivity)) (div_nonneg (by linarith) (by positivity)) (div_nonneg (by linarith) d2.le)) ?_ ?_
    · simp only [Matrix.cons_val_zero, Matrix.cons_val_one, Matrix.cons_val, line0, line2]
      field_simp
      ring
    · simp only [combine, place, Matrix.cons_val_zero, Matrix.cons_val_one, Matrix.cons_val, line0, line2, Prod.mk.injEq]
      constructor <;> (field_simp; try ring)
  have cr : 0 ≤ line0 r' m a c → 0 ≤ line2 r' m a c → ∃ t, InHull (fun k => f (corner (dmesh sq x y nr nt) (simplex sq x y nr nt i j t) k)) p := by
    intro q0 q1
    refine mk .right ![line2 r' m a c / (2 * r' * (r' - m)), line0 r' m a c / (2 * r' * (r' - m)), (r' - (a + c)) / (r' - m)]
      (three (div_nonneg q1 (by positivity)) (div_nonneg q0 (by positivity)) (div_nonneg (by linarith) d3.le)) ?_ ?_
    · simp only [Matrix.cons_val_zero, Matrix.cons_val_one, Matrix.cons_val, line0, line2]
      field_simp
      ring
    · simp only [combine, place, Matrix.cons_val_zero, Matrix.cons_val_one, Matrix.cons_val, line0, line2, Prod.mk.injEq]
      constructor <;> (field_simp; try ring)
  have ct : 0 ≤ line2 r m a c → line2 r' m a c ≤ 0 → ∃ t, InHull (fun k => f (corner (dmesh sq x y nr nt) (simplex sq x y nr nt i j t) k)) p := by
    intro q0 q1
    refine mk .top ![-line2 r' m a c / (m * (r' - r)), line2 r m a c / (m * (r' - r)), 2 * a / m]
      (three (div_nonneg (by linarith) (by positivity)) (div_nonneg q0 (by positivity)) (by positivity)) ?_ ?_
    · simp only [Matrix.cons_val_zero, Matrix.cons_val_one, Matrix.cons_val, line2]
      field_simp
      ring
    · simp only [combine, place, Matrix.cons_val_zero, Matrix.cons_val_one, Matrix.cons_val, line2, Prod.mk.injEq]
      constructor <;> (field_simp; try ring)
  have e1 : line2 r m a c = line0 r m a c + 2 * ((a - c) * (r - m)) := by unfold line0 line2; ring
  have e2 : line2 r' m a c = line0 r' m a c + 2 * ((a - c) * (r' - m)) := by unfold line0 line2; ring
  rcases le_or_gt 0 (line0 r m a c) with q0 | q0
  · rcases le_or_gt (line0 r' m a c) 0 with q1 | q1
    · exact cb q0 q1
    · rcases le_or_gt 0 (line2 r' m a c) with q2 | q2
      · exact cr q1.le q2
      · have hw : a - c < 0 := by
          by_contra hc'
          have := mul_nonneg (not_lt.1 hc') d3.le
          linarith
        refine ct ?_ q2.le
        have := mul_pos_of_neg_of_neg hw (by linarith : r - m < 0)
        linarith
  · rcases le_or_gt (line2 r m a c) 0 with q1 | q1
    · exact cl q0.le q1
    · have hw : a - c < 0 := by
        by_contra hc'
        have := mul_nonneg (not_lt.1 hc') d2.le
        nlinarith
      rcases le_or_gt (line2 r' m a c) 0 with q2 | q2
      · exact ct q1.le q2
      · refine cr ?_ q2.le
        have := mul_neg_of_neg_of_pos hw d3
        linarith

/-- The cells of the redrawn mesh. -/
theorem mem_redraw {sr : ℝ → ℝ} {c : DSimplex ℝ} (hc : c ∈ (redraw sr f (dmesh sq x y nr nt)).cells) :
    ∃ i j t, i < nr ∧ j < nt ∧ c.index = triNo nr i j t ∧ c.verts = (simplex sq x y nr nt i j t).verts ∧
      c.facets = (labels i j t).map (facetNo nr) ∧
      corner (redraw sr f (dmesh sq x y nr nt)) c = fun k => f (corner (dmesh sq x y nr nt) (simplex sq x y nr nt i j t) k) := by
  obtain ⟨c0, h0, rfl⟩ := List.mem_map.1 hc
  obtain ⟨i, j, t, hi, hj, rfl⟩ := mem_simplices.1 h0
  exact ⟨i, j, t, hi, hj, rfl, rfl, rfl, rfl⟩

theorem redraw_mem {sr : ℝ → ℝ} (hi : i < nr) (hj : j < nt) (t : Tri) :
    ∃ c ∈ (redraw sr f (dmesh sq x y nr nt)).cells, c.index = triNo nr i j t ∧ c.verts = (simplex sq x y nr nt i j t).verts ∧
      c.facets = (labels i j t).map (facetNo nr) ∧
      corner (redraw sr f (dmesh sq x y nr nt)) c = fun k => f (corner (dmesh sq x y nr nt) (simplex sq x y nr nt i j t) k) :=
  ⟨_, List.mem_map.2 ⟨_, mem_simplices.2 ⟨i, j, t, hi, hj, rfl⟩, rfl⟩, rfl, rfl, rfl, rfl⟩

/-- The points of a crossed polar grid are those of the grid without middles. -/
theorem crossed_points (h : Polar R T nr nt) (hM : Inside R M nr) (hf : Draws f x y R T nr nt) (hm : DrawsMid f x y M T nr nt)
    (hnr : 1 ≤ nr) {sr : ℝ → ℝ} (p : Vec ℝ 2) :
    (∃ c ∈ (redraw sr f (dmesh sq x y nr nt)).cells, InHull (corner (redraw sr f (dmesh sq x y nr nt)) c) p) ↔
      ∃ j < nt, ∃ a c, 0 ≤ a ∧ 0 ≤ c ∧ R 0 ≤ a + c ∧ a + c ≤ R nr ∧ ∀ k, p k = a * dir (T j) k + c * dir (T (j + 1)) k := by
  constructor
  · rintro ⟨c, hc, hp⟩
    obtain ⟨i, j, t, hi, hj, -, -, -, e⟩ := mem_redraw hc
    rw [e] at hp
    obtain ⟨w, hw, hsum, hpe⟩ := hp
    rw [Fin.sum_univ_three] at hsum
    obtain ⟨n1, n2⟩ := hM i hi
    obtain ⟨q1, q2, q3, q4⟩ := combine_nonneg (h.posAt hi.le) n1 n2 hw hsum t
    exact ⟨j, hj, _, _, q1, q2, (Sector.mono_le h.radius (Nat.zero_le i) hi.le).trans q3,
      q4.trans (Sector.mono_le h.radius (Nat.succ_le_of_lt hi) le_rfl), fun k => (hpe k).trans (combine_eq hf hm hi hj w k)⟩
  · rintro ⟨j, hj, a, c, ha, hc, h1, h2, he⟩
    obtain ⟨i, hi, l1, l2⟩ := exists_step hnr h1 h2
    obtain ⟨t, hp⟩ := box_hull (sq := sq) h hM hf hm hi hj ha hc l1 l2 he
    obtain ⟨c, hc, -, -, -, e⟩ := redraw_mem (f := f) (x := x) (y := y) (sq := sq) (sr := sr) hi hj t
    exact ⟨c, hc, e ▸ hp⟩


end Crossed
end Dt
