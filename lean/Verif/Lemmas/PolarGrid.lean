import Verif.Lemmas.Polar

/-!
# Triangles of a polar grid
-/

namespace Dt
namespace Sector
open Real Dt.Topology Spec Rect

/-- The point of the polar grid. -/
noncomputable def polar (r t : ℝ) : Vec ℝ 2 := fun k => r * dir t k

/-- Radii and angles of a polar grid: the radii grow, the angles grow by less than half a turn and make at most one turn. -/
structure Polar (R T : Nat → ℝ) (nr nt : Nat) : Prop where
  pos : 0 < R 0
  radius : ∀ i < nr, R i < R (i + 1)
  angle : ∀ j < nt, T j < T (j + 1)
  half : ∀ j < nt, T (j + 1) - T j < π
  turn : T nt - T 0 ≤ 2 * π

variable {R T : Nat → ℝ} {nr nt i j i' j' : Nat} {x y : Nat → ℝ} {d : Nat → Nat → Bool} {s s' : Bool} {f : Vec ℝ 2 → Vec ℝ 2}

theorem mono_of_step {R : Nat → ℝ} {n : Nat} (h : ∀ i < n, R i < R (i + 1)) : ∀ k i, i + k ≤ n → R i ≤ R (i + k) := by
  intro k
  induction k with
  | zero => intro i _; exact le_rfl
  | succ k ih =>
    intro i hi
    exact (ih i (by omega)).trans (h (i + k) (by omega)).le

theorem mono_le {R : Nat → ℝ} {n : Nat} (h : ∀ i < n, R i < R (i + 1)) (hij : i ≤ j) (hj : j ≤ n) : R i ≤ R j := by
  obtain ⟨k, rfl⟩ := Nat.exists_eq_add_of_le hij
  exact mono_of_step h k i hj

theorem Polar.posAt (h : Polar R T nr nt) (hi : i ≤ nr) : 0 < R i := h.pos.trans_le (mono_le h.radius (Nat.zero_le i) hi)

/-- `f` puts vertex `(i, j)` of the grid at the polar coordinates `R i`, `T j`. -/
def Draws (f : Vec ℝ 2 → Vec ℝ 2) (x y : Nat → ℝ) (R T : Nat → ℝ) (nr nt : Nat) : Prop :=
  ∀ i ≤ nr, ∀ j ≤ nt, f ![x i, y j] = polar (R i) (T j)

/-- The box coordinates of the corners of a triangle. -/
def cornerAt (i j : Nat) : Bool → Bool → Fin 3 → Nat × Nat
  | true, false => ![(i, j), (i + 1, j), (i + 1, j + 1)]
  | true, true => ![(i, j), (i, j + 1), (i + 1, j + 1)]
  | false, false => ![(i, j), (i + 1, j), (i, j + 1)]
  | false, true => ![(i + 1, j), (i, j + 1), (i + 1, j + 1)]

theorem corner_at (hi : i < nr) (k : Fin 3) :
    corner (dmesh x y d nr nt) (simplex x y d nr i j s) k =
      ![x (cornerAt i j (d i j) s k).1, y (cornerAt i j (d i j) s k).2] := by
  unfold corner
  cases hd : d i j <;> cases s <;> fin_cases k <;> simp only [simplex, hd] <;>
    exact coord_vert (by first | exact hi.le | exact hi)

theorem drawn (hf : Draws f x y R T nr nt) (hi : i < nr) (hj : j < nt) (k : Fin 3) :
    f (corner (dmesh x y d nr nt) (simplex x y d nr i j s) k) =
      polar (R (cornerAt i j (d i j) s k).1) (T (cornerAt i j (d i j) s k).2) := by
  rw [corner_at hi]
  refine hf _ ?_ _ ?_ <;> (cases d i j <;> cases s <;> fin_cases k <;> simp [cornerAt] <;> omega)

theorem area_polar (r0 t0 r1 t1 r2 t2 : ℝ) : area (polar r0 t0) (polar r1 t1) (polar r2 t2) =
    r0 * r1 * sin (t1 - t0) + r1 * r2 * sin (t2 - t1) + r2 * r0 * sin (t0 - t2) := by
  simp only [area, polar, dir, sin_sub, Matrix.cons_val_zero, Matrix.cons_val_one]
  ring

theorem area_ne (h : Polar R T nr nt) (hf : Draws f x y R T nr nt) (hi : i < nr) (hj : j < nt) :
    area (f (corner (dmesh x y d nr nt) (simplex x y d nr i j s) 0)) (f (corner (dmesh x y d nr nt) (simplex x y d nr i j s) 1))
      (f (corner (dmesh x y d nr nt) (simplex x y d nr i j s) 2)) ≠ 0 := by
  have h0 := h.posAt (i := i) hi.le
  have h1 := h.posAt (i := i + 1) hi
  have hr := h.radius i hi
  have hs : 0 < sin (T (j + 1) - T j) := sin_pos_of_pos_of_lt_pi (by linarith [h.angle j hj]) (h.half j hj)
  have hn : sin (T j - T (j + 1)) = -sin (T (j + 1) - T j) := by rw [← sin_neg]; ring_nf
  rw [drawn hf hi hj, drawn hf hi hj, drawn hf hi hj, area_polar]
  have q1 : 0 < R i * ((R (i + 1) - R i) * sin (T (j + 1) - T j)) := mul_pos h0 (mul_pos (by linarith) hs)
  have q2 : 0 < R (i + 1) * ((R (i + 1) - R i) * sin (T (j + 1) - T j)) := mul_pos h1 (mul_pos (by linarith) hs)
  cases d i j <;> cases s <;> simp only [cornerAt, Matrix.cons_val_zero, Matrix.cons_val_one, Matrix.cons_val, sub_self, sin_zero, hn] <;>
    intro e <;> nlinarith

/-- On which side of the diagonal a point of a box is. -/
def sideOf (b : Bool) (r r' a c : ℝ) : ℝ := if b then a * r' + c * r - r * r' else r * r' - a * r - c * r'

/-- The box coordinates of the interior of a triangle. -/
structure Within (R T : Nat → ℝ) (i j : Nat) (b s : Bool) (p : Vec ℝ 2) (a c : ℝ) : Prop where
  apos : 0 < a
  cpos : 0 < c
  lo : R i < a + c
  hi : a + c < R (i + 1)
  side : if s then sideOf b (R i) (R (i + 1)) a c < 0 else 0 < sideOf b (R i) (R (i + 1)) a c
  eq : ∀ k, p k = a * dir (T j) k + c * dir (T (j + 1)) k

theorem within (h : Polar R T nr nt) (hf : Draws f x y R T nr nt) (hi : i < nr) (hj : j < nt) {p : Vec ℝ 2}
    (hp : InInterior (fun k => f (corner (dmesh x y d nr nt) (simplex x y d nr i j s) k)) p) :
    ∃ a c, Within R T i j (d i j) s p a c := by
  obtain ⟨w, hw, hsum, hpe⟩ := hp
  have h0 := h.posAt (i := i) hi.le
  have h1 := h.posAt (i := i + 1) hi
  have hr := h.radius i hi
  replace hpe : ∀ m, p m = ∑ k : Fin 3, w k * polar (R (cornerAt i j (d i j) s k).1) (T (cornerAt i j (d i j) s k).2) m :=
    fun m => (hpe m).trans (Finset.sum_congr rfl fun k _ => by dsimp only; rw [drawn hf hi hj k])
  rw [Fin.sum_univ_three] at hsum
  simp only [Fin.sum_univ_three] at hpe
  have w0 := hw 0
  have w1 := hw 1
  have w2 := hw 2
  have e0 : w 0 = 1 - w 1 - w 2 := by linarith
  have m00 := mul_pos w0 h0
  have m01 := mul_pos w0 h1
  have m10 := mul_pos w1 h0
  have m11 := mul_pos w1 h1
  have m20 := mul_pos w2 h0
  have m21 := mul_pos w2 h1
  have d0 := mul_pos w0 (sub_pos.2 hr)
  have d1 := mul_pos w1 (sub_pos.2 hr)
  have d2 := mul_pos w2 (sub_pos.2 hr)
  have k0 := mul_pos d0 h0
  have k1 := mul_pos d1 h0
  have k2 := mul_pos d2 h0
  have l0 := mul_pos d0 h1
  have l1 := mul_pos d1 h1
  have l2 := mul_pos d2 h1
  generalize d i j = b at hpe ⊢
  cases b <;> cases s <;> simp only [cornerAt, Matrix.cons_val_zero, Matrix.cons_val_one, Matrix.cons_val, polar] at hpe
  · refine ⟨w 0 * R i + w 1 * R (i + 1), w 2 * R i, by linarith, m20, ?_, ?_, ?_, fun k => (hpe k).trans (by ring)⟩
    · rw [e0]; linarith
    · rw [e0] at d0 ⊢; linarith
    · simp only [sideOf, if_false, Bool.false_eq_true]
      rw [e0] at k0 ⊢
      nlinarith
  · refine ⟨w 0 * R (i + 1), w 1 * R i + w 2 * R (i + 1), m01, by linarith, ?_, ?_, ?_, fun k => (hpe k).trans (by ring)⟩
    · rw [e0] at d0 ⊢; linarith
    · rw [e0]; linarith
    · simp only [sideOf, if_false, if_true, Bool.false_eq_true]
      rw [e0] at k0 ⊢
      nlinarith
  · refine ⟨w 0 * R i + w 1 * R (i + 1), w 2 * R (i + 1), by linarith, m21, ?_, ?_, ?_, fun k => (hpe k).trans (by ring)⟩
    · rw [e0]; linarith
    · rw [e0] at d0 ⊢; linarith
    · simp only [sideOf, if_true, if_false, Bool.false_eq_true]
      rw [e0] at k0 ⊢
      nlinarith
  · refine ⟨w 0 * R i, w 1 * R i + w 2 * R (i + 1), m00, by linarith, ?_, ?_, ?_, fun k => (hpe k).trans (by ring)⟩
    · rw [e0]; linarith
    · rw [e0] at d0 ⊢; linarith
    · simp only [sideOf, if_true]
      rw [e0] at k0 ⊢
      nlinarith

theorem within_box (h : Polar R T nr nt) (hj : j < nt) (hj' : j' < nt) {b b' : Bool} {p : Vec ℝ 2}
    {a c a' c' : ℝ} (w : Within R T i j b s p a c) (w' : Within R T i' j' b' s' p a' c') : j = j' := by
  obtain ⟨r, v, hr, hv1, hv2, hv⟩ := between (h.angle j hj) (h.half j hj) w.apos w.cpos
  obtain ⟨r', v', hr', hv1', hv2', hv'⟩ := between (h.angle j' hj') (h.half j' hj') w'.apos w'.cpos
  have l1 := mono_le h.angle (Nat.zero_le j) hj.le
  have l2 := mono_le h.angle (Nat.succ_le_of_lt hj) le_rfl
  have l1' := mono_le h.angle (Nat.zero_le j') hj'.le
  have l2' := mono_le h.angle (Nat.succ_le_of_lt hj') le_rfl
  have ht := h.turn
  have hvv : v = v' := polar_unique hr hr' (by linarith) (by linarith) (fun k => by
    rw [← hv k, ← hv' k, ← w.eq k, ← w'.eq k])
  subst hvv
  rcases lt_trichotomy j j' with hlt | he | hlt
  · have := mono_le h.angle (Nat.succ_le_of_lt hlt) hj'.le
    linarith
  · exact he
  · have := mono_le h.angle (Nat.succ_le_of_lt hlt) hj.le
    linarith

theorem polar_disjoint (h : Polar R T nr nt) (hi : i < nr) (hj : j < nt) (hi' : i' < nr) (hj' : j' < nt) {p : Vec ℝ 2}
    {a c a' c' : ℝ} (w : Within R T i j (d i j) s p a c) (w' : Within R T i' j' (d i' j') s' p a' c') :
    i = i' ∧ j = j' ∧ s = s' := by
  obtain rfl := within_box h hj hj' w w'
  obtain ⟨rfl, rfl⟩ := dir_indep (h.angle j hj) (h.half j hj) (fun k => (w.eq k).symm.trans (w'.eq k))
  have hii : i = i' := by
    have a1 := w.lo
    have a2 := w.hi
    have a3 := w'.lo
    have a4 := w'.hi
    rcases lt_trichotomy i i' with hlt | he | hlt
    · have := mono_le h.radius (Nat.succ_le_of_lt hlt) hi'.le
      linarith
    · exact he
    · have := mono_le h.radius (Nat.succ_le_of_lt hlt) hi.le
      linarith
  subst hii
  refine ⟨rfl, rfl, ?_⟩
  have s1 := w.side
  have s2 := w'.side
  cases s <;> cases s' <;> first | rfl | (simp only [if_true, if_false, Bool.false_eq_true] at s1 s2; linarith)

/-- A polar grid is a triangulation. -/
theorem polar_triangulation (h : Polar R T nr nt) (hf : Draws f x y R T nr nt) :
    Triangulation (by decide : 2 ≤ 3) (redraw sqrt f (dmesh x y d nr nt)) := by
  refine redraw_triangulation (fun u hu => sqrt_pos.2 hu) (dmesh_frame x y d nr nt) ?_ ?_
  · intro c hc
    obtain ⟨i, j, s, hi, hj, rfl⟩ := mem_simplices.1 hc
    exact area_ne h hf hi hj
  · rintro c hc c' hc' hne p ⟨hp, hp'⟩
    obtain ⟨i, j, s, hi, hj, rfl⟩ := mem_simplices.1 hc
    obtain ⟨i', j', s', hi', hj', rfl⟩ := mem_simplices.1 hc'
    obtain ⟨a, c, w⟩ := within h hf hi hj hp
    obtain ⟨a', c', w'⟩ := within h hf hi' hj' hp'
    obtain ⟨rfl, rfl, rfl⟩ := polar_disjoint h hi hj hi' hj' w w'
    exact hne rfl

/-- The points of a triangle, and the points of a box: what is in a triangle is in its box. -/
theorem hull_box (h : Polar R T nr nt) (hf : Draws f x y R T nr nt) (hi : i < nr) (hj : j < nt) {p : Vec ℝ 2}
    (hp : InHull (fun k => f (corner (dmesh x y d nr nt) (simplex x y d nr i j s) k)) p) :
    ∃ a c, 0 ≤ a ∧ 0 ≤ c ∧ R i ≤ a + c ∧ a + c ≤ R (i + 1) ∧ ∀ k, p k = a * dir (T j) k + c * dir (T (j + 1)) k := by
  obtain ⟨w, hw, hsum, hpe⟩ := hp
  have h0 := h.posAt (i := i) hi.le
  have h1 := h.posAt (i := i + 1) hi
  have hr := h.radius i hi
  replace hpe : ∀ m, p m = ∑ k : Fin 3, w k * polar (R (cornerAt i j (d i j) s k).1) (T (cornerAt i j (d i j) s k).2) m :=
    fun m => (hpe m).trans (Finset.sum_congr rfl fun k _ => by dsimp only; rw [drawn hf hi hj k])
  rw [Fin.sum_univ_three] at hsum
  simp only [Fin.sum_univ_three] at hpe
  have w0 := hw 0
  have w1 := hw 1
  have w2 := hw 2
  have e0 : w 0 = 1 - w 1 - w 2 := by linarith
  have m00 := mul_nonneg w0 h0.le
  have m01 := mul_nonneg w0 h1.le
  have m10 := mul_nonneg w1 h0.le
  have m11 := mul_nonneg w1 h1.le
  have m20 := mul_nonneg w2 h0.le
  have m21 := mul_nonneg w2 h1.le
  have d0 := mul_nonneg w0 (sub_pos.2 hr).le
  have d1 := mul_nonneg w1 (sub_pos.2 hr).le
  have d2 := mul_nonneg w2 (sub_pos.2 hr).le
  generalize d i j = b at hpe
  cases b <;> cases s <;> simp only [cornerAt, Matrix.cons_val_zero, Matrix.cons_val_one, Matrix.cons_val, polar] at hpe
  · refine ⟨w 0 * R i + w 1 * R (i + 1), w 2 * R i, by linarith, m20, ?_, ?_, fun k => (hpe k).trans (by ring)⟩
    · rw [e0]; linarith
    · rw [e0] at d0 ⊢; linarith
  · refine ⟨w 0 * R (i + 1), w 1 * R i + w 2 * R (i + 1), m01, by linarith, ?_, ?_, fun k => (hpe k).trans (by ring)⟩
    · rw [e0] at d0 ⊢; linarith
    · rw [e0]; linarith
  · refine ⟨w 0 * R i + w 1 * R (i + 1), w 2 * R (i + 1), by linarith, m21, ?_, ?_, fun k => (hpe k).trans (by ring)⟩
    · rw [e0]; linarith
    · rw [e0] at d0 ⊢; linarith
  · refine ⟨w 0 * R i, w 1 * R i + w 2 * R (i + 1), m00, by linarith, ?_, ?_, fun k => (hpe k).trans (by ring)⟩
    · rw [e0]; linarith
    · rw [e0] at d0 ⊢; linarith

/-- What is in a box is in one of its triangles. -/
theorem box_hull (h : Polar R T nr nt) (hf : Draws f x y R T nr nt) (hi : i < nr) (hj : j < nt) {p : Vec ℝ 2} {a c : ℝ}
    (ha : 0 ≤ a) (hc : 0 ≤ c) (hlo : R i ≤ a + c) (hhi : a + c ≤ R (i + 1))
    (hp : ∀ k, p k = a * dir (T j) k + c * dir (T (j + 1)) k) :
    ∃ s, InHull (fun k => f (corner (dmesh x y d nr nt) (simplex x y d nr i j s) k)) p := by
  have h0 := h.posAt (i := i) hi.le
  have h1 := h.posAt (i := i + 1) hi
  have hr := sub_pos.2 (h.radius i hi)
  have mk : ∀ (s : Bool) (w : Fin 3 → ℝ), (∀ k, 0 ≤ w k) → w 0 + w 1 + w 2 = 1 →
      (∀ m, a * dir (T j) m + c * dir (T (j + 1)) m =
        w 0 * polar (R (cornerAt i j (d i j) s 0).1) (T (cornerAt i j (d i j) s 0).2) m +
        w 1 * polar (R (cornerAt i j (d i j) s 1).1) (T (cornerAt i j (d i j) s 1).2) m +
        w 2 * polar (R (cornerAt i j (d i j) s 2).1) (T (cornerAt i j (d i j) s 2).2) m) →
      ∃ s, InHull (fun k => f (corner (dmesh x y d nr nt) (simplex x y d nr i j s) k)) p := by
    intro s w hw hs he
    refine ⟨s, w, hw, by rw [Fin.sum_univ_three]; exact hs, fun m => ?_⟩
    rw [hp m, he m, Fin.sum_univ_three]
    dsimp only
    rw [drawn hf hi hj 0, drawn hf hi hj 1, drawn hf hi hj 2]
  have three : ∀ {u v w : ℝ}, 0 ≤ u → 0 ≤ v → 0 ≤ w → ∀ k, 0 ≤ (![u, v, w] : Fin 3 → ℝ) k := by
    intro u v w hu hv hw k
    fin_cases k
    · exact hu
    · exact hv
    · exact hw
  have hr0 := hr.ne'
  have h00 := h0.ne'
  have h10 := h1.ne'
  cases hd : d i j <;> simp only [hd] at mk
  · rcases le_total 0 (R i * R (i + 1) - a * R i - c * R (i + 1)) with hs | hs
    · refine mk false ![(R i * R (i + 1) - a * R i - c * R (i + 1)) / (R i * (R (i + 1) - R i)), (a + c - R i) / (R (i + 1) - R i), c / R i]
        (three (div_nonneg hs (by positivity)) (div_nonneg (by linarith) hr.le) (div_nonneg hc h0.le)) ?_ fun m => ?_
      · simp only [Matrix.cons_val_zero, Matrix.cons_val_one, Matrix.cons_val]
        field_simp
        ring
      · simp only [Matrix.cons_val_zero, Matrix.cons_val_one, Matrix.cons_val, cornerAt, polar]
        field_simp
        ring
    · refine mk true ![a / R (i + 1), (R (i + 1) - a - c) / (R (i + 1) - R i), -(R i * R (i + 1) - a * R i - c * R (i + 1)) / (R (i + 1) * (R (i + 1) - R i))]
        (three (div_nonneg ha h1.le) (div_nonneg (by linarith) hr.le) (div_nonneg (by linarith) (by positivity))) ?_ fun m => ?_
      · simp only [Matrix.cons_val_zero, Matrix.cons_val_one, Matrix.cons_val]
        field_simp
        ring
      · simp only [Matrix.cons_val_zero, Matrix.cons_val_one, Matrix.cons_val, cornerAt, polar]
        field_simp
        ring
  · rcases le_total 0 (a * R (i + 1) + c * R i - R i * R (i + 1)) with hs | hs
    · refine mk false ![(R (i + 1) - a - c) / (R (i + 1) - R i), (a * R (i + 1) + c * R i - R i * R (i + 1)) / (R (i + 1) * (R (i + 1) - R i)), c / R (i + 1)]
        (three (div_nonneg (by linarith) hr.le) (div_nonneg hs (by positivity)) (div_nonneg hc h1.le)) ?_ fun m => ?_
      · simp only [Matrix.cons_val_zero, Matrix.cons_val_one, Matrix.cons_val]
        field_simp
        ring
      · simp only [Matrix.cons_val_zero, Matrix.cons_val_one, Matrix.cons_val, cornerAt, polar]
        field_simp
        ring
    · refine mk true ![a / R i, -(a * R (i + 1) + c * R i - R i * R (i + 1)) / (R i * (R (i + 1) - R i)), (a + c - R i) / (R (i + 1) - R i)]
        (three (div_nonneg ha h0.le) (div_nonneg (by linarith) (by positivity)) (div_nonneg (by linarith) hr.le)) ?_ fun m => ?_
      · simp only [Matrix.cons_val_zero, Matrix.cons_val_one, Matrix.cons_val]
        field_simp
        ring
      · simp only [Matrix.cons_val_zero, Matrix.cons_val_one, Matrix.cons_val, cornerAt, polar]
        field_simp
        ring

/-- A number between the ends of a growing sequence is between two neighbours. -/
theorem exists_step {R : Nat → ℝ} {n : Nat} {u : ℝ} (hn : 1 ≤ n) (h0 : R 0 ≤ u) (h1 : u ≤ R n) :
    ∃ i < n, R i ≤ u ∧ u ≤ R (i + 1) := by
  induction n with
  | zero => omega
  | succ n ih =>
    by_cases hle : R n ≤ u
    · exact ⟨n, by omega, hle, h1⟩
    · by_cases hn0 : n = 0
      · subst hn0; exact absurd h0 hle
      · obtain ⟨i, hi, h⟩ := ih (by omega) (le_of_not_ge hle)
        exact ⟨i, by omega, h⟩

/-- The corners of a redrawn triangle. -/
theorem mem_redraw {sq : ℝ → ℝ} {c : DSimplex ℝ} (hc : c ∈ (redraw sq f (dmesh x y d nr nt)).cells) :
    ∃ i j s, i < nr ∧ j < nt ∧ c.index = cellNo nr i j s ∧ c.verts = cornerNos nr i j (d i j) s ∧
      c.facets = (edges (d i j) s).map (edgeNo nr i j) ∧
      corner (redraw sq f (dmesh x y d nr nt)) c = fun k => f (corner (dmesh x y d nr nt) (simplex x y d nr i j s) k) := by
  obtain ⟨c0, h0, rfl⟩ := List.mem_map.1 hc
  obtain ⟨i, j, s, hi, hj, rfl⟩ := mem_simplices.1 h0
  exact ⟨i, j, s, hi, hj, rfl, rfl, rfl, rfl⟩

theorem redraw_mem {sq : ℝ → ℝ} (hi : i < nr) (hj : j < nt) (s : Bool) :
    ∃ c ∈ (redraw sq f (dmesh x y d nr nt)).cells, c.index = cellNo nr i j s ∧ c.verts = cornerNos nr i j (d i j) s ∧
      c.facets = (edges (d i j) s).map (edgeNo nr i j) ∧
      corner (redraw sq f (dmesh x y d nr nt)) c = fun k => f (corner (dmesh x y d nr nt) (simplex x y d nr i j s) k) :=
  ⟨_, List.mem_map.2 ⟨_, mem_simplices.2 ⟨i, j, s, hi, hj, rfl⟩, rfl⟩, rfl, rfl, rfl, rfl⟩

/-- The points of a polar grid. -/
theorem polar_points (h : Polar R T nr nt) (hf : Draws f x y R T nr nt) (hnr : 1 ≤ nr) {sq : ℝ → ℝ} (p : Vec ℝ 2) :
    (∃ c ∈ (redraw sq f (dmesh x y d nr nt)).cells, InHull (corner (redraw sq f (dmesh x y d nr nt)) c) p) ↔
      ∃ j < nt, ∃ a c, 0 ≤ a ∧ 0 ≤ c ∧ R 0 ≤ a + c ∧ a + c ≤ R nr ∧ ∀ k, p k = a * dir (T j) k + c * dir (T (j + 1)) k := by
  constructor
  · rintro ⟨c, hc, hp⟩
    obtain ⟨i, j, s, hi, hj, -, -, -, e⟩ := mem_redraw hc
    rw [e] at hp
    obtain ⟨a, c, ha, hc, h1, h2, he⟩ := hull_box h hf hi hj hp
    exact ⟨j, hj, a, c, ha, hc, (mono_le h.radius (Nat.zero_le i) hi.le).trans h1,
      h2.trans (mono_le h.radius (Nat.succ_le_of_lt hi) le_rfl), he⟩
  · rintro ⟨j, hj, a, c, ha, hc, h1, h2, he⟩
    obtain ⟨i, hi, l1, l2⟩ := exists_step hnr h1 h2
    obtain ⟨s, hp⟩ := box_hull (d := d) h hf hi hj ha hc l1 l2 he
    obtain ⟨c, hc, -, -, -, e⟩ := redraw_mem (f := f) (x := x) (y := y) (d := d) (sq := sq) hi hj s
    exact ⟨c, hc, e ▸ hp⟩

end Sector
end Dt
