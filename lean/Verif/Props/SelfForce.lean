import Verif.Spec.SelfForce
import Verif.Props.SheetEnergy
import Verif.Props.Wall

/-!
# The field in one-dimensional simulations against the exact field (C111), and the momentum (C112)
-/

set_option linter.unusedSectionVars false

namespace Dt
open Spec Poisson TimeLoop
variable {K V : Type} [Field K] [LinearOrder K] [IsStrictOrderedRing K] {τ ρ : Type}

section
variable {x : Nat → K} {N : Nat} {eps va vb : K}

theorem sum_below (hx : ∀ c < N, x c < x (c + 1)) {y : K} (h0 : x 0 ≤ y) : ∀ n ≤ N,
    ∑ c ∈ Finset.range n, (x (c + 1) - x c) * below (x c) (x (c + 1)) y = if y ≤ x n then x n - y else 0 := by
  intro n
  induction n with
  | zero =>
    intro _
    split
    · have : y = x 0 := le_antisymm (by assumption) h0
      simp [this]
    · simp
  | succ n ih =>
    intro hn
    have hlt := hx n (by omega)
    rw [Finset.sum_range_succ, ih (by omega)]
    by_cases h1 : y ≤ x n
    · rw [if_pos h1, if_pos (h1.trans hlt.le)]
      unfold below
      rw [if_pos h1]
      ring
    · rw [if_neg h1]
      by_cases h2 : y ≤ x (n + 1)
      · rw [if_pos h2, below_in hlt (not_le.1 h1).le h2]
        ring
      · rw [if_neg h2]
        unfold below
        rw [if_neg h1, if_pos (not_le.1 h2).le]
        ring

theorem list_sum_div (l : List (K × K)) (f : K × K → K) : (l.map (fun q => q.1 / eps * f q)).sum = (l.map (fun q => q.1 * f q)).sum / eps := by
  induction l with
  | nil => simp
  | cons q l ih => rw [List.map_cons, List.sum_cons, ih, List.map_cons, List.sum_cons]; ring

theorem grid_le (hg : Grid .cartesian x N) : x 0 < x N := by
  have h0 := hg.pos
  exact (hg.lt 0 (by omega)).trans_le (grid_up hg.lt (by omega) (le_refl N))

/-- The charge of the lower electrode. -/
theorem electrode (he : 0 < eps) (hg : Grid .cartesian x N) {charges : List (K × K)} {F : Nat → K}
    (hy : ∀ q ∈ charges, x 0 ≤ q.2 ∧ q.2 ≤ x N)
    (h : IsField eps .cartesian x N (.num va) vb charges F) :
    ∀ c < N, eps * F c = eps * lowField eps (x 0) (x N) va vb charges +
      (charges.map (fun q => q.1 * below (x c) (x (c + 1)) q.2)).sum := by
  obtain ⟨A, h1, -, h3⟩ := h
  have h3 := h3 va rfl
  have h1' : ∀ c < N, eps * F c = A + (charges.map (fun q => q.1 * below (x c) (x (c + 1)) q.2)).sum := by
    intro c hc
    rw [← h1 c hc]
    simp [flux, area]
  have hlen := grid_le hg
  have hA : A * (x N - x 0) + (charges.map (fun q => q.1 * (x N - q.2))).sum = eps * (va - vb) := by
    rw [← h3, Finset.mul_sum]
    have : ∑ c ∈ Finset.range N, eps * ((x (c + 1) - x c) * F c) =
        ∑ c ∈ Finset.range N, ((x (c + 1) - x c) * A + (charges.map (fun q => q.1 * ((x (c + 1) - x c) * below (x c) (x (c + 1)) q.2))).sum) := by
      refine Finset.sum_congr rfl fun c hc => ?_
      rw [show eps * ((x (c + 1) - x c) * F c) = (x (c + 1) - x c) * (eps * F c) by ring, h1' c (Finset.mem_range.1 hc), mul_add,
        ← List.sum_map_mul_left]
      congr 3
      funext q
      ring
    rw [this, Finset.sum_add_distrib, ← Finset.sum_mul, Finset.sum_range_sub, sum_swap]
    have h2 : charges.map (fun q => ∑ i ∈ Finset.range N, q.1 * ((x (i + 1) - x i) * below (x i) (x (i + 1)) q.2)) =
        charges.map (fun q => q.1 * (x N - q.2)) := by
      refine List.map_congr_left fun q hq => ?_
      rw [← Finset.mul_sum, sum_below hg.lt (hy q hq).1 N (le_refl N), if_pos (hy q hq).2]
    rw [h2]
    ring
  have hne : x N - x 0 ≠ 0 := (sub_pos.2 hlen).ne'
  intro c hc
  rw [h1' c hc]
  congr 1
  have hl : (charges.map (fun q => q.1 / eps * ((x N - q.2) / (x N - x 0)))).sum =
      (charges.map (fun q => q.1 * (x N - q.2))).sum / (eps * (x N - x 0)) := by
    rw [list_sum_div, eq_div_iff (mul_ne_zero he.ne' hne), div_mul_eq_mul_div, div_eq_iff he.ne', mul_comm eps (x N - x 0), ← mul_assoc]
    congr 1
    rw [← List.sum_map_mul_right]
    congr 1
    refine List.map_congr_left fun q _ => ?_
    field_simp
  unfold lowField
  rw [hl]
  field_simp
  linarith

theorem half_out {a b t y : K} (h1 : a ≤ t) (h2 : t ≤ b) (hy : ¬ (a ≤ y ∧ y ≤ b)) : below a b y = halfBelow t y := by
  unfold below halfBelow
  by_cases h : a ≤ y
  · have hb : b < y := not_le.1 (fun q => hy ⟨h, q⟩)
    rw [if_neg (by intro q; linarith), if_pos hb.le, if_neg (by intro q; linarith), if_pos (by linarith)]
  · have ha := not_le.1 h
    rw [if_pos ha.le, if_pos (by linarith)]

theorem half_in {a b t y : K} (hab : a < b) (h1 : a ≤ t) (h2 : t ≤ b) : |below a b y - halfBelow t y| ≤ 1 := by
  have hb : 0 ≤ below a b y ∧ below a b y ≤ 1 := by
    unfold below
    split
    · constructor <;> linarith
    · split
      · constructor <;> linarith
      · rename_i g1 g2
        have := not_le.1 g1
        have := not_le.1 g2
        have hp : 0 < b - a := by linarith
        exact ⟨div_nonneg (by linarith) hp.le, by rw [div_le_one hp]; linarith⟩
  have hh : 0 ≤ halfBelow t y ∧ halfBelow t y ≤ 1 := by
    unfold halfBelow
    split
    · constructor <;> linarith
    · split
      · constructor <;> linarith
      · constructor <;> norm_num
  rw [abs_le]
  constructor <;> linarith [hb.1, hb.2, hh.1, hh.2]

theorem sum_filter_of_zero {ι : Type} (l : List ι) (P : ι → Bool) (f : ι → K) (h : ∀ i ∈ l, P i = false → f i = 0) :
    (l.map f).sum = ((l.filter P).map f).sum := by
  induction l with
  | nil => rfl
  | cons i l ih =>
    have ih := ih (fun j hj => h j (by simp [hj]))
    rw [List.map_cons, List.sum_cons, List.filter_cons, ih]
    cases hp : P i with
    | true => simp
    | false => rw [h i (by simp) hp]; simp

/-- **C111.** The field of the program in a cell and the exact field at a point of the cell differ by what the mesh does
with the charges of this cell, and only of this cell. -/
theorem C111_field (he : 0 < eps) (hg : Grid .cartesian x N) {charges : List (K × K)} {F : Nat → K}
    (hy : ∀ q ∈ charges, x 0 ≤ q.2 ∧ q.2 ≤ x N)
    (h : IsField eps .cartesian x N (.num va) vb charges F) {c : Nat} (hc : c < N) {t : K} (h1 : x c ≤ t) (h2 : t ≤ x (c + 1)) :
    F c = sheetField eps (x 0) (x N) va vb charges t +
      ((within (x c) (x (c + 1)) charges).map (fun q => q.1 / eps * (below (x c) (x (c + 1)) q.2 - halfBelow t q.2))).sum := by
  have hE := electrode he hg hy h c hc
  have hF : F c = lowField eps (x 0) (x N) va vb charges + (charges.map (fun q => q.1 / eps * below (x c) (x (c + 1)) q.2)).sum := by
    rw [list_sum_div]
    field_simp
    linarith
  unfold within
  rw [hF, ← sum_filter_of_zero charges _ (fun q => q.1 / eps * (below (x c) (x (c + 1)) q.2 - halfBelow t q.2))]
  · unfold lowField sheetField
    have : ∀ l : List (K × K), - (l.map (fun q => q.1 / eps * ((x N - q.2) / (x N - x 0)))).sum + (l.map (fun q => q.1 / eps * below (x c) (x (c + 1)) q.2)).sum =
        (l.map (fun q => q.1 / eps * (halfBelow t q.2 - (x N - q.2) / (x N - x 0)))).sum +
        (l.map (fun q => q.1 / eps * (below (x c) (x (c + 1)) q.2 - halfBelow t q.2))).sum := by
      intro l
      induction l with
      | nil => simp
      | cons q l ih => simp only [List.map_cons, List.sum_cons]; linear_combination ih
    linear_combination this charges
  · intro q _ hq
    rw [half_out h1 h2 (of_decide_eq_false hq)]
    ring

/-- **C111.** The field differs from the exact field by at most the charge (all counted as positive) in the cell of
the point, divided by `eps`. -/
theorem C111_bound (he : 0 < eps) (hg : Grid .cartesian x N) {charges : List (K × K)} {F : Nat → K}
    (hy : ∀ q ∈ charges, x 0 ≤ q.2 ∧ q.2 ≤ x N)
    (h : IsField eps .cartesian x N (.num va) vb charges F) {c : Nat} (hc : c < N) {t : K} (h1 : x c ≤ t) (h2 : t ≤ x (c + 1)) :
    |F c - sheetField eps (x 0) (x N) va vb charges t| ≤
      ((within (x c) (x (c + 1)) charges).map (fun q => |q.1|)).sum / eps := by
  rw [C111_field he hg hy h hc h1 h2, add_sub_cancel_left]
  generalize within (x c) (x (c + 1)) charges = l
  induction l with
  | nil => simp
  | cons q l ih =>
    simp only [List.map_cons, List.sum_cons]
    refine (abs_add_le _ _).trans ?_
    rw [add_div]
    refine add_le_add ?_ ih
    rw [abs_mul, abs_div, abs_of_pos he]
    have := half_in (t := t) (y := q.2) (hg.lt c hc) h1 h2
    calc |q.1| / eps * |below (x c) (x (c + 1)) q.2 - halfBelow t q.2|
        ≤ |q.1| / eps * 1 := mul_le_mul_of_nonneg_left this (div_nonneg (abs_nonneg _) he.le)
      _ = |q.1| / eps := mul_one _

/-- **C111.** In a cell without charges the field is exact. -/
theorem C111_empty_cell (he : 0 < eps) (hg : Grid .cartesian x N) {charges : List (K × K)} {F : Nat → K}
    (hy : ∀ q ∈ charges, x 0 ≤ q.2 ∧ q.2 ≤ x N)
    (h : IsField eps .cartesian x N (.num va) vb charges F) {c : Nat} (hc : c < N)
    (hemp : ∀ q ∈ charges, q.2 < x c ∨ x (c + 1) < q.2) {t : K} (h1 : x c ≤ t) (h2 : t ≤ x (c + 1)) :
    F c = sheetField eps (x 0) (x N) va vb charges t := by
  rw [C111_field he hg hy h hc h1 h2]
  have : within (x c) (x (c + 1)) charges = [] := by
    unfold within
    rw [List.filter_eq_nil_iff]
    intro q hq
    have := hemp q hq
    simp only [decide_eq_true_eq, not_and, not_le]
    intro h
    rcases this with h' | h'
    · exact absurd h (not_le.2 h')
    · exact h'
  rw [this]
  simp

/-- **C111.** A particle that is alone in its cell is pushed by its own charge: besides the exact force there is the
force `q²/eps` times its distance from the middle of the cell, divided by the width of the cell, towards the middle of
the cell.  (For a particle in the middle of the cell the field is exact.) -/
theorem C111_self_force (he : 0 < eps) (hg : Grid .cartesian x N) {before after : List (K × K)} {q t : K} {F : Nat → K}
    (hy : ∀ q ∈ before ++ after, x 0 ≤ q.2 ∧ q.2 ≤ x N)
    (h : IsField eps .cartesian x N (.num va) vb (before ++ (q, t) :: after) F) {c : Nat} (hc : c < N)
    (halone : ∀ q ∈ before ++ after, q.2 < x c ∨ x (c + 1) < q.2) (h1 : x c ≤ t) (h2 : t ≤ x (c + 1)) :
    q * F c = q * sheetField eps (x 0) (x N) va vb (before ++ (q, t) :: after) t +
      q ^ 2 / eps * (((x c + x (c + 1)) / 2 - t) / (x (c + 1) - x c)) := by
  have hlt := hg.lt c hc
  have hN : x 0 ≤ t ∧ t ≤ x N := ⟨(grid_up hg.lt (Nat.zero_le c) hc.le).trans h1, h2.trans (grid_up hg.lt (by omega) (le_refl N))⟩
  have hy' : ∀ p ∈ before ++ (q, t) :: after, x 0 ≤ p.2 ∧ p.2 ≤ x N := by
    intro p hp
    rcases List.mem_append.1 hp with hp | hp
    · exact hy p (by simp [hp])
    · rcases List.mem_cons.1 hp with rfl | hp
      · exact hN
      · exact hy p (by simp [hp])
  have hout : ∀ l : List (K × K), (∀ p ∈ l, p.2 < x c ∨ x (c + 1) < p.2) → within (x c) (x (c + 1)) l = [] := by
    intro l hl
    unfold within
    rw [List.filter_eq_nil_iff]
    intro p hp
    simp only [decide_eq_true_eq, not_and, not_le]
    intro h
    rcases hl p hp with h' | h'
    · exact absurd h (not_le.2 h')
    · exact h'
  rw [C111_field he hg hy' h hc h1 h2]
  have hw : within (x c) (x (c + 1)) (before ++ (q, t) :: after) = [(q, t)] := by
    have e1 := hout before (fun p hp => halone p (by simp [hp]))
    have e2 := hout after (fun p hp => halone p (by simp [hp]))
    unfold within at e1 e2 ⊢
    rw [List.filter_append, e1, List.filter_cons, e2]
    simp [h1, h2]
  rw [hw]
  simp only [List.map_cons, List.map_nil, List.sum_cons, List.sum_nil, add_zero]
  have hb := below_in hlt h1 h2
  have hne : x (c + 1) - x c ≠ 0 := (sub_pos.2 hlt).ne'
  have hb' : below (x c) (x (c + 1)) t = (x (c + 1) - t) / (x (c + 1) - x c) := by
    rw [eq_div_iff hne]; linarith
  rw [hb', show halfBelow t t = (1 : K) / 2 by simp [halfBelow]]
  field_simp
  ring

/-- **C111.** The exact field is the one that belongs to the exact potential between the plates (that of C90): where there is no
charge, potential differences are field times distance; at a sheet it is the mean of the fields on both sides. -/
theorem C111_exact_field {a b : K} (hab : a < b) (charges : List (K × K)) {t t' s : K} (h1 : t < t')
    (hs : t ≤ s ∧ s ≤ t') (hq : ∀ q ∈ charges, q.2 < t ∨ t' < q.2) :
    plates eps a b va vb charges t - plates eps a b va vb charges t' = (t' - t) * sheetField eps a b va vb charges s := by
  have hne : b - a ≠ 0 := (sub_pos.2 hab).ne'
  have key : ∀ l : List (K × K), (∀ q ∈ l, q.2 < t ∨ t' < q.2) →
      (l.map (fun q => q.1 / eps * green a b t q.2)).sum - (l.map (fun q => q.1 / eps * green a b t' q.2)).sum =
        (t' - t) * (l.map (fun q => q.1 / eps * (halfBelow s q.2 - (b - q.2) / (b - a)))).sum := by
    intro l
    induction l with
    | nil => intro _; simp
    | cons q l ih =>
      intro hl
      have ih := ih (fun p hp => hl p (by simp [hp]))
      have hone : green a b t q.2 - green a b t' q.2 = (t' - t) * (halfBelow s q.2 - (b - q.2) / (b - a)) := by
        rcases hl q (by simp) with h | h
        · rw [green_above h.le, green_above (by linarith)]
          unfold halfBelow
          rw [if_pos (by linarith [hs.1])]
          field_simp
          ring
        · rw [green_below (by linarith), green_below h.le]
          unfold halfBelow
          rw [if_neg (by intro h'; linarith [hs.2]), if_pos (by linarith [hs.2])]
          field_simp
          ring
      simp only [List.map_cons, List.sum_cons]
      linear_combination ih + q.1 / eps * hone
  unfold plates sheetField
  have := key charges hq
  have h2 : (vb - va) * (t - a) / (b - a) - (vb - va) * (t' - a) / (b - a) = (t' - t) * ((va - vb) / (b - a)) := by
    field_simp
    ring
  linear_combination this + h2

/-! ### C112 -/

theorem cell_share_sum {locate : K → Nat} (hx : ∀ c < N, x c < x (c + 1)) (charges : List (K × K)) {c : Nat} (hc : c < N) :
    lowShare x locate charges c + highShare x locate charges c = (charges.map (fun q => if locate q.2 = c then q.1 else 0)).sum := by
  have hne : x (c + 1) - x c ≠ 0 := (sub_pos.2 (hx c hc)).ne'
  unfold lowShare highShare
  induction charges with
  | nil => simp
  | cons q l ih =>
    simp only [List.map_cons, List.sum_cons]
    rw [← ih]
    split
    · field_simp
      ring
    · ring

theorem below_split {locate : K → Nat} (hx : ∀ c < N, x c < x (c + 1)) {y : K}
    (hl : locate y < N ∧ x (locate y) ≤ y ∧ y ≤ x (locate y + 1)) {c : Nat} (hc : c < N) :
    below (x c) (x (c + 1)) y = (if locate y < c then 1 else 0) +
      (if locate y = c then (x (c + 1) - y) / (x (c + 1) - x c) else 0) := by
  obtain ⟨h1, h2, h3⟩ := hl
  have hlt := hx c hc
  rcases lt_trichotomy (locate y) c with h | h | h
  · rw [if_pos h, if_neg h.ne]
    unfold below
    rw [if_pos (h3.trans (grid_up hx (by omega) hc.le)), add_zero]
  · rw [if_neg (by omega), if_pos h]
    rw [h] at h2 h3
    have := below_in hlt h2 h3
    have hne : x (c + 1) - x c ≠ 0 := (sub_pos.2 hlt).ne'
    rw [zero_add, eq_div_iff hne]
    linarith
  · rw [if_neg (by omega), if_neg h.ne']
    have hy : x (c + 1) ≤ y := (grid_up hx (by omega) h1.le).trans h2
    unfold below
    rw [if_neg (by intro q; linarith), if_pos hy, add_zero]

/-- **C112.** The sum of the forces on all particles is the force of the exact fields at the plates, plus a force of the mesh: for each
cell, half of the difference of the squares of the charges that the particles of this cell put on its lower and on its
upper vertex. -/
theorem C112_force (he : 0 < eps) (hg : Grid .cartesian x N) {charges : List (K × K)} {F : Nat → K} {locate : K → Nat}
    (hl : ∀ q ∈ charges, locate q.2 < N ∧ x (locate q.2) ≤ q.2 ∧ q.2 ≤ x (locate q.2 + 1))
    (h : IsField eps .cartesian x N (.num va) vb charges F) :
    (charges.map (fun q => q.1 * F (locate q.2))).sum =
      wallForce eps (x 0) (x N) va vb charges + meshForce eps x N locate charges := by
  have hy : ∀ q ∈ charges, x 0 ≤ q.2 ∧ q.2 ≤ x N := fun q hq =>
    ⟨(grid_up hg.lt (Nat.zero_le _) (hl q hq).1.le).trans (hl q hq).2.1, (hl q hq).2.2.trans (grid_up hg.lt (hl q hq).1 (le_refl N))⟩
  have hE := electrode he hg hy h
  set A := eps * lowField eps (x 0) (x N) va vb charges with hA
  set S : Nat → K := fun c => (charges.map (fun q => if locate q.2 = c then q.1 else 0)).sum with hS
  set l := lowShare x locate charges with hlow
  set r := highShare x locate charges with hhigh
  have hlr : ∀ c < N, l c + r c = S c := fun c hc => cell_share_sum hg.lt charges hc
  -- the charge below a cell
  have hbelow : ∀ n, ∑ c ∈ Finset.range n, S c = (charges.map (fun q => if locate q.2 < n then q.1 else 0)).sum := by
    intro n
    rw [hS, sum_swap]
    congr 1
    refine List.map_congr_left fun q _ => ?_
    rw [Finset.sum_ite_eq]
    simp [Finset.mem_range]
  have hflux : ∀ c < N, eps * F c = A + ∑ c' ∈ Finset.range c, S c' + l c := by
    intro c hc
    rw [hE c hc, hbelow, hlow, add_assoc]
    congr 1
    unfold lowShare
    clear hS hlr hbelow hlow hhigh hE hA h
    revert hl
    generalize charges = cs
    intro hl
    induction cs with
    | nil => simp
    | cons q cs ih =>
      simp only [List.map_cons, List.sum_cons]
      rw [ih (fun p hp => hl p (by simp [hp])), below_split hg.lt (hl q (by simp)) hc]
      split <;> split <;> ring
  -- the force, by cells
  have hforce : (charges.map (fun q => q.1 * F (locate q.2))).sum = ∑ c ∈ Finset.range N, S c * F c := by
    have : ∀ c ∈ Finset.range N, S c * F c = (charges.map (fun q => if locate q.2 = c then q.1 * F c else 0)).sum := by
      intro c _
      rw [hS, ← List.sum_map_mul_right]
      congr 1
      refine List.map_congr_left fun q _ => ?_
      split <;> ring
    rw [Finset.sum_congr rfl this, sum_swap]
    congr 1
    refine List.map_congr_left fun q hq => ?_
    rw [Finset.sum_ite_eq, if_pos (Finset.mem_range.2 (hl q hq).1)]
  have htel : ∀ n ≤ N, ∑ c ∈ Finset.range n, S c * (eps * F c) =
      ((A + ∑ c ∈ Finset.range n, S c) ^ 2 - A ^ 2) / 2 + (∑ c ∈ Finset.range n, (l c ^ 2 - r c ^ 2)) / 2 := by
    intro n
    induction n with
    | zero => intro _; simp
    | succ n ih =>
      intro hn
      rw [Finset.sum_range_succ, ih (by omega), Finset.sum_range_succ, Finset.sum_range_succ, hflux n (by omega)]
      have := hlr n (by omega)
      rw [show r n = S n - l n by linarith]
      ring
  have hT := htel N (le_refl N)
  have hQ : ∑ c ∈ Finset.range N, S c = eps * (charges.map (fun q => q.1 / eps)).sum := by
    rw [hbelow, ← List.sum_map_mul_left]
    congr 1
    refine List.map_congr_left fun q hq => ?_
    rw [if_pos (hl q hq).1, mul_div_cancel₀ _ he.ne']
  rw [hforce]
  have h2 : eps * ∑ c ∈ Finset.range N, S c * F c = ∑ c ∈ Finset.range N, S c * (eps * F c) := by
    rw [Finset.mul_sum]
    exact Finset.sum_congr rfl fun c _ => by ring
  have h3 : eps * (∑ c ∈ Finset.range N, S c * F c) = eps * (wallForce eps (x 0) (x N) va vb charges + meshForce eps x N locate charges) := by
    rw [h2, hT, hQ, hA]
    unfold wallForce meshForce highField
    rw [← hlow, ← hhigh]
    field_simp
  exact mul_left_cancel₀ he.ne' h3

end

/-! ### Simulations -/

section
variable {x : Nat → K} {N : Nat} {eps va vb : K} {marker : Int → Int} {L : String → Bool} {qom : String → K} {locate : K → Nat}

theorem sheet_step (he : 0 < eps) (hg : Grid .cartesian x N) (hloc : Locates x N locate) {σ φ : Type}
    {cfg : Cfg K V (Part K 1 ρ) σ φ} {sl : Nat} {i j : Ideal K V (Part K 1 ρ) σ} (hi : Placed x N locate i)
    (h : FieldStep eps .cartesian x N (.num va) vb L qom locate cfg sl i j) :
    SheetStep eps va vb x N L qom cfg sl i j := by
  obtain ⟨h1, h2, F, hF, hp⟩ := h
  refine ⟨h1, h2, fun t => F (locate t), fun t t0 t1 => ?_, hp⟩
  obtain ⟨c0, c1, c2⟩ := hloc t t0 t1
  refine ⟨locate t, c0, c1, c2, C111_bound he hg ?_ hF c0 c1 c2⟩
  intro q hq
  simp only [chargesOf, List.mem_flatMap, List.mem_map] at hq
  obtain ⟨p, hp, q, hq, rfl⟩ := hq
  obtain ⟨a0, a1, a2⟩ := hi p hp q hq
  exact ⟨(grid_up hg.lt (Nat.zero_le _) a0.le).trans a1, a2.trans (grid_up hg.lt a0 (le_refl N))⟩

/-- **C111.** Whole simulations between plates: in each step the charged particles move in a field that differs from the exact
field of all the charges by at most the charge in the particle's own cell. -/
theorem C111_run (hM : (lineMesh x N marker).Conforming)
    {bc : String → Int → τ → BCall K 1 1 ρ → Except Err (τ × Part K 1 ρ)} (hb : ∀ sn, WallBC marker N (L sn) false (bc sn))
    (hcell : ∀ sn, KeepsCell (bc sn)) {maxCross : Nat} (hloc : Locates x N locate)
    {cfg : Cfg K V (Part K 1 ρ) (τ × Vec K 1) (List K)}
    (hmove : cfg.move = pyMove (le_refl 1) (lineMesh x N marker) bc maxCross cfg.dt qom
      (fun _ f q => some (fun _ => -(f.getD (locate (q.x 0)) 0))))
    (hsrc : SourcesPresent (le_refl 1) (lineMesh x N marker) cfg.sources)
    {fmarker : Nat → Int} {s : Solver K} {d : Nat → Nat} {C sl : Nat} (hel : Electro cfg x N fmarker s d C)
    (hc : GoodCfg cfg) {z : Species.HRow K} (n : Nat) {init : Option (List (String × List (Part K 1 ρ)))}
    (hinit : InitPresent (le_refl 1) (lineMesh x N marker) init)
    {st : State K V (Part K 1 ρ) (τ × Vec K 1) (List K)} {i : Ideal K V (Part K 1 ρ) (τ × Vec K 1)} {b : List K}
    (hf : Fresh sl (N + 1) C n z st i b) (hn : (i.pops.map (·.name)).Nodup)
    (hnone : st.writer = none → cfg.partEvery = none)
    {lo hi : Int} {dd : List (String × Int × Val K)}
    (he : 0 < eps) (hg : Grid .cartesian x N) (hmk : Marks fmarker N lo hi) (hd : Given .cartesian dd lo hi (.num va) vb)
    (hs : create eps .cartesian x N fmarker dd = .ok s)
    {i0 : Ideal K V (Part K 1 ρ) (τ × Vec K 1)} {is : List (Ideal K V (Part K 1 ρ) (τ × Vec K 1))}
    (hr : Ideal.run cfg sl (N + 1) (inLine x N) init b n i = .ok (i0, is)) :
    (i0 :: is).IsChain (SheetStep eps va vb x N L qom cfg sl) ∧
    (i0 :: is).IsChain (FieldStep eps .cartesian x N (.num va) vb L qom locate cfg sl) ∧
    (∀ j ∈ i0 :: is, Placed x N locate j) ∧
    ∃ st', run cfg init n st = .ok st' ∧ Outcome cfg d C init.isSome b st st' i0 is := by
  obtain ⟨h1, h2, h3⟩ := field_run (L := L) hM hcell hloc hmove
    (fun sn f time st q st' q' evs hq e => C76_particle hM (v := .charged) rfl rfl (hb sn) hq e)
    hsrc hel hc n hinit hf hn hnone he hg hmk hd hs hr
  refine ⟨?_, h1, h2, h3⟩
  have h2 : ∀ j ∈ i0 :: is, Placed x N locate j := h2
  clear h3 hr
  generalize i0 :: is = l at h1 h2
  induction h1 with
  | nil => exact .nil
  | singleton => exact .singleton _
  | cons_cons hab _ ih =>
    exact .cons_cons (sheet_step he hg hloc (h2 _ (by simp)) hab) (ih fun j hj => h2 j (by simp [hj]))

/-! ### C112: the momentum in a simulation -/

theorem free_moves {co : Coord} {v0 : Val K} {σ φ : Type} {cfg : Cfg K V (Part K 1 ρ) σ φ} {sl : Nat} {i j : Ideal K V (Part K 1 ρ) σ}
    (hwt : ∀ q q', q.rest = q'.rest → cfg.A.weight q = cfg.A.weight q')
    (h : FieldStep eps co x N v0 vb L qom locate cfg sl i j) (hfree : LineFree (x 0) L cfg sl i j) :
    ∃ F, IsField eps co x N v0 vb (chargesOf cfg.A.weight (cfg.factor.getD 1) i.pops) F ∧
      List.Forall₂ (Sheet.Moves cfg.dt (fun y => F (locate y)))
      (sheetsOf cfg.A.weight (cfg.factor.getD 1) qom i.pops) (sheetsOf cfg.A.weight (cfg.factor.getD 1) qom j.pops) := by
  obtain ⟨-, -, F, hF, hpops⟩ := h
  refine ⟨F, hF, ?_⟩
  unfold LineFree at hfree
  clear hF
  generalize i.pops = l at hpops hfree
  generalize j.pops = l' at hpops hfree
  unfold sheetsOf
  induction hpops with
  | nil => exact .nil
  | @cons p p' ps ps' hpp _ ih =>
    rw [List.forall₂_cons] at hfree
    obtain ⟨⟨hmade, hst⟩, hfree⟩ := hfree
    obtain ⟨e1, e2, e3, e4, e5⟩ := hpp
    rw [List.flatMap_cons, List.flatMap_cons]
    refine List.rel_append ?_ (ih hfree)
    rw [hmade, List.map_nil, List.append_nil] at e5
    rw [e1, e2, e3]
    by_cases hq0 : p.charge = 0
    · rw [if_pos hq0] at e5
      clear hmade
      generalize p.st.items = xs at hst e5
      generalize p'.st.items = ys at hst e5
      induction hst with
      | nil => exact .nil
      | @cons q q' xs ys _ _ ih3 =>
        simp only [List.map_cons, List.cons.injEq] at e5
        simp only [List.map_cons]
        refine .cons ?_ (ih3 e5.2)
        have hk := e5.1
        simp only [kin, Prod.mk.injEq] at hk
        obtain ⟨k1, k2, k3⟩ := hk
        refine ⟨?_, ?_, rfl, .inr ⟨?_, ?_, ?_⟩⟩
        · dsimp only; rw [hwt q' q k3]
        · dsimp only; rw [hwt q' q k3]
        · dsimp only; rw [hq0]; ring
        · dsimp only; rw [k2]
        · dsimp only; rw [k1]
    · rw [if_neg hq0] at e5
      have hlen : p'.st.items.length = p.st.items.length := hst.length_eq.symm
      have hflt := congrArg List.length e5
      rw [List.length_map, hlen, ← List.length_map (f := kin), ← List.length_map (as := p.st.items.map kin)
        (f := walledLeap (x 0) (L p.name) cfg.dt (qom p.name) (fun y => F (locate y)))] at hflt
      rw [List.filter_eq_self.2 (List.length_filter_eq_length_iff.1 hflt.symm)] at e5
      clear hmade hflt hlen
      generalize p.st.items = xs at hst e5
      generalize p'.st.items = ys at hst e5
      induction hst with
      | nil => exact .nil
      | @cons q q' xs ys hc0 _ ih3 =>
        simp only [List.map_cons, List.cons.injEq] at e5
        simp only [List.map_cons]
        refine .cons ?_ (ih3 e5.2)
        obtain ⟨c2, c3⟩ := hc0 hq0
        have hk := e5.1
        have hk2 : kin q' = leap cfg.dt (qom p.name) (some (fun _ => F (locate (q.x 0)))) (kin q) := by
          rw [hk]
          unfold walledLeap
          dsimp only
          split
          · rename_i hL
            unfold folded
            rw [if_neg]
            · rfl
            intro hlt
            rw [walledLeap] at hk
            rw [if_pos hL, folded, if_pos hlt] at hk
            simp only [kin, leap, mirrored, Option.getD_some, Prod.mk.injEq] at hk
            obtain ⟨k1, k2, -⟩ := hk
            have k1 := congrFun k1 0
            have k2 := congrFun k2 0
            have c3 := c3 hL
            simp only [Pi.add_apply, Pi.smul_apply, Pi.neg_apply, smul_eq_mul] at k1 k2
            rw [c2, k2] at k1
            linarith
          · rfl
        simp only [kin, leap, Option.getD_some, Prod.mk.injEq] at hk2
        obtain ⟨k1, k2, k3⟩ := hk2
        refine ⟨?_, ?_, rfl, .inl ⟨?_, c2⟩⟩
        · dsimp only; rw [hwt q' q k3]
        · dsimp only; rw [hwt q' q k3]
        · dsimp only [Sheet.kicked]
          rw [k2]
          simp

/-- **C112.** The momentum of sheets that make a leapfrog step changes by the time step times the force of the exact fields at the
plates and that of the mesh. -/
theorem C112_step (he : 0 < eps) (hg : Grid .cartesian x N) {bs bs' : List (Sheet K)} {F : Nat → K} {dt : K}
    (hF : IsField eps .cartesian x N (.num va) vb (bs.map (fun b => (b.q, b.y))) F)
    (hl : ∀ b ∈ bs, locate b.y < N ∧ x (locate b.y) ≤ b.y ∧ b.y ≤ x (locate b.y + 1))
    (hqm : ∀ b ∈ bs, b.qom * b.m = b.q) (hmv : List.Forall₂ (Sheet.Moves dt (fun y => F (locate y))) bs bs') :
    momentum bs' = momentum bs + dt * (wallForce eps (x 0) (x N) va vb (bs.map (fun b => (b.q, b.y))) +
      meshForce eps x N locate (bs.map (fun b => (b.q, b.y)))) := by
  rw [← C112_force he hg (by
    intro q hq
    obtain ⟨b, hb, rfl⟩ := List.mem_map.1 hq
    exact hl b hb) hF]
  clear hF hl
  unfold momentum
  induction hmv with
  | nil => simp
  | @cons b b' bs bs' hbb _ ih =>
    have ih := ih (fun b hb => hqm b (by simp [hb]))
    have hq := hqm b (by simp)
    simp only [List.map_cons, List.sum_cons]
    rw [ih, hbb.m]
    rcases hbb.motion with ⟨h1, -⟩ | ⟨h0, h1, -⟩
    · rw [h1, Sheet.kicked, ← hq]
      ring
    · rw [h1, h0]
      ring

/-- **C112.** In a step of a simulation between plates in which no particle is made, lost or reflected the momentum changes by the
time step times the force of the exact fields at the plates and that of the mesh. -/
theorem C112_momentum (he : 0 < eps) (hg : Grid .cartesian x N) {σ φ : Type} {cfg : Cfg K V (Part K 1 ρ) σ φ} {sl : Nat}
    {i j : Ideal K V (Part K 1 ρ) σ} (hwt : ∀ q q', q.rest = q'.rest → cfg.A.weight q = cfg.A.weight q')
    (h : FieldStep eps .cartesian x N (.num va) vb L qom locate cfg sl i j) (hi : Placed x N locate i)
    (hqm : ∀ p ∈ i.pops, qom p.name * p.mass = p.charge) (hfree : LineFree (x 0) L cfg sl i j) :
    momentum (sheetsOf cfg.A.weight (cfg.factor.getD 1) qom j.pops) = momentum (sheetsOf cfg.A.weight (cfg.factor.getD 1) qom i.pops) +
      cfg.dt * (wallForce eps (x 0) (x N) va vb (chargesOf cfg.A.weight (cfg.factor.getD 1) i.pops) +
        meshForce eps x N locate (chargesOf cfg.A.weight (cfg.factor.getD 1) i.pops)) := by
  obtain ⟨F, hF, hmv⟩ := free_moves hwt h hfree
  rw [← sheets_charges cfg.A.weight (cfg.factor.getD 1) qom] at hF ⊢
  refine C112_step he hg hF ?_ ?_ hmv
  · intro b hb
    obtain ⟨p, hp, q, hq, rfl⟩ := mem_sheets hb
    exact hi p hp q hq
  · intro b hb
    obtain ⟨p, hp, q, hq, rfl⟩ := mem_sheets hb
    dsimp only
    rw [← hqm p hp]
    ring

end

/-! ### Electrons between two grounded plates, three cells -/

section Demo

def sheetX (i : Nat) : ℚ := i

def sheetMarks (i : Nat) : Int := if i = 0 then 1 else if i = 3 then 2 else 0

def sheetLocate (y : ℚ) : Nat := if y ≤ 1 then 0 else if y ≤ 2 then 1 else 2

abbrev sheetSolver : Solver ℚ := made 1 .cartesian sheetX 3 sheetMarks 1 2 (.num 0) 0

/-- The solution of the equations with three cells of length 1. -/
def sheetSolve (b : List ℚ) : List ℚ :=
  [b.getD 0 0, (2 * (b.getD 1 0 + b.getD 0 0) + (b.getD 2 0 + b.getD 3 0)) / 3,
    ((b.getD 1 0 + b.getD 0 0) + 2 * (b.getD 2 0 + b.getD 3 0)) / 3, b.getD 3 0]

def sheetCfg : Cfg ℚ ℚ SimPart (Unit × Vec ℚ 1) (List ℚ) :=
  { simCfg [] with
    move := pyMove (le_refl 1) (lineMesh sheetX 3 (fun F => if F = 0 then 1 else if F = 3 then 2 else 0)) (fun _ => wallBC) 6 (1 / 2)
      (fun _ => -1) (fun _ f q => some (fun _ => -(f.getD (sheetLocate (q.x 0)) 0)))
    A := ⟨fun q => q.cell.toNat, fun _ => 1⟩
    SD := lineSpace sheetX (fun q => q.cell.toNat) (fun q => q.x 0)
    bc := applyVec sheetMarks sheetSolver.bcs
    solve := sheetSolve
    fieldOf := negE sheetX 3 }

abbrev sheetRun (xs : List SimPart) (n : Nat) :
    Except Fault (Ideal ℚ ℚ SimPart (Unit × Vec ℚ 1) × List (Ideal ℚ ℚ SimPart (Unit × Vec ℚ 1))) :=
  Ideal.run sheetCfg 2 4 (inLine sheetX 3) (some [("e", xs)]) [0, 0, 0, 0] n simIdeal

theorem sheet_grid : Grid .cartesian sheetX 3 := ⟨by decide, fun c _ => by simp [sheetX], by rintro ⟨⟩⟩

theorem sheet_marks : Marks sheetMarks 3 1 2 :=
  ⟨rfl, rfl, by decide, fun i h0 h1 => by
    rcases (show i = 1 ∨ i = 2 by omega) with rfl | rfl <;> decide⟩

theorem sheet_given : Given .cartesian [("xmax", 2, Val.num (0 : ℚ)), ("xmin", 1, .num 0)] 1 2 (.num 0) 0 :=
  ⟨rfl, rfl, fun h => by cases h⟩

theorem sheet_solves (b : List ℚ) (hb : b.length = 3 + 1) : Solves 3 sheetSolver.A b (sheetSolve b) := by
  have a : ∀ i ≤ 3, ∀ j ≤ 3, sheetSolver.A i j =
      (if i = 0 then (if j = 0 then 1 else 0)
       else if i = 1 then (if j = 0 then -1 else if j = 1 then 2 else if j = 2 then -1 else 0)
       else if i = 2 then (if j = 1 then -1 else if j = 2 then 2 else if j = 3 then -1 else 0)
       else if j = 3 then 1 else 0) := by decide +kernel
  refine ⟨rfl, ?_⟩
  intro i hi
  have hr : Finset.range (3 + 1) = {0, 1, 2, 3} := by decide
  rw [hr, Finset.sum_insert (by decide), Finset.sum_insert (by decide), Finset.sum_insert (by decide), Finset.sum_singleton,
    a i hi 0 (by decide), a i hi 1 (by decide), a i hi 2 (by decide), a i hi 3 (by decide)]
  interval_cases i <;> simp [sheetSolve] <;> ring

theorem sheet_electro : Spec.Electro sheetCfg sheetX 3 sheetMarks sheetSolver (fun k => k) 3 :=
  ⟨rfl, rfl, rfl, sheet_solves, rfl, rfl, ⟨fun _ _ => rfl, fun _ _ _ _ h => h, fun _ h => h⟩⟩

theorem sheet_locates : Locates sheetX 3 sheetLocate := by
  have e0 : sheetX 0 = 0 := by decide +kernel
  have e1 : sheetX 1 = 1 := by decide +kernel
  have e2 : sheetX 2 = 2 := by decide +kernel
  have e3 : sheetX 3 = 3 := by decide +kernel
  intro y h0 h3
  rw [e0] at h0
  rw [e3] at h3
  unfold sheetLocate
  split
  · rename_i h; exact ⟨by decide, by rw [e0]; exact h0, by rw [e1]; exact h⟩
  · split
    · rename_i h h'; exact ⟨by decide, by rw [e1]; exact (not_le.1 h).le, by rw [e2]; exact h'⟩
    · rename_i h h'; exact ⟨by decide, by rw [e2]; exact (not_le.1 h').le, by rw [e3]; exact h3⟩

theorem sheet_good : GoodCfg sheetCfg := by
  obtain ⟨h1, h2, h3, h4, h5⟩ := sim_good []
  exact ⟨h1, h2, h3, h4, h5⟩

/-- C111 applies to every number of electrons in this simulation, and any number of steps. -/
theorem sheet_chain (xs : List SimPart) (hxs : ∀ q ∈ xs, Present (le_refl 1) (lineMesh sheetX 3 (fun F => if F = 0 then 1 else if F = 3 then 2 else 0)) q)
    (n : Nat) {i0 : Ideal ℚ ℚ SimPart (Unit × Vec ℚ 1)} {is : List (Ideal ℚ ℚ SimPart (Unit × Vec ℚ 1))}
    (hr : sheetRun xs n = .ok (i0, is)) :
    (i0 :: is).IsChain (SheetStep 1 0 0 sheetX 3 (fun _ => true) (fun _ => -1) sheetCfg 2) ∧
    (i0 :: is).IsChain (FieldStep 1 .cartesian sheetX 3 (.num 0) 0 (fun _ => true) (fun _ => -1) sheetLocate sheetCfg 2) ∧
    (∀ j ∈ i0 :: is, Placed sheetX 3 sheetLocate j) ∧
    ∃ st', run sheetCfg (some [("e", xs)]) n (simState n) = .ok st' := by
  obtain ⟨h1, h2, h3, st', h4, -⟩ := C111_run (L := fun _ => true) (va := 0) (vb := 0) (eps := 1) (cfg := sheetCfg) demoLine_conforming
    (fun _ => wallBC_wall) (fun _ => wallBC_keepsCell) sheet_locates rfl (fun s hs => by cases hs) sheet_electro sheet_good n
    (by
      intro gs hgs a ha q hq
      cases hgs
      simp only [List.mem_singleton] at ha
      subst ha
      exact hxs q hq) (sim_fresh n) (by decide) (fun h => by cases h) one_pos sheet_grid sheet_marks sheet_given (create_eq sheet_given) hr
  exact ⟨h1, h2, h3, st', h4⟩

/-- What the examples look at: position, velocity, and the exact force, of each particle. -/
def sheetView (i : Ideal ℚ ℚ SimPart (Unit × Vec ℚ 1)) : List (ℚ × ℚ × ℚ) :=
  i.pops.flatMap (fun p => p.st.items.map (fun q => (q.x 0, q.u 0,
    p.charge * sheetField 1 0 3 0 0 (chargesOf sheetCfg.A.weight (sheetCfg.factor.getD 1) i.pops) (q.x 0))))

/-- C111 is false for the particle's own charge: a single electron at rest at 5/4 between grounded plates at 0 and 3 is
attracted by the nearer plate, at 0; in the simulation it moves towards the other one. -/
theorem C111_false_direction : ∃ i0 i1, sheetRun [demoPart (5 / 4) 0 1 false] 1 = .ok (i0, [i1]) ∧
    sheetView i0 = [(5 / 4, 0, -1 / 12)] ∧ (sheetView i1).map (fun v => (v.1, v.2.1)) = [(31 / 24, 1 / 12)] := by
  have h : (sheetRun [demoPart (5 / 4) 0 1 false] 1).toOption.map (fun r => (sheetView r.1, r.2.map (fun i => (sheetView i).map (fun v => (v.1, v.2.1))))) =
      some ([(5 / 4, 0, -1 / 12)], [[(31 / 24, 1 / 12)]]) := by decide +kernel
  cases hr : sheetRun [demoPart (5 / 4) 0 1 false] 1 with
  | error f => rw [hr] at h; cases h
  | ok r =>
    obtain ⟨i0, is⟩ := r
    rw [hr] at h
    simp only [Except.toOption, Option.map_some, Option.some.injEq, Prod.mk.injEq] at h
    rcases is with _ | ⟨i1, _ | ⟨i2, is⟩⟩
    · simp at h
    · simp only [List.map_cons, List.map_nil, List.cons.injEq, and_true] at h
      exact ⟨i0, i1, rfl, h⟩
    · simp at h

def trio : List SimPart := [demoPart (9 / 8) 0 1 false, demoPart (9 / 8) 0 1 false, demoPart (9 / 4) 0 2 false]

def sheetMomentum (i : Ideal ℚ ℚ SimPart (Unit × Vec ℚ 1)) : ℚ :=
  momentum (sheetsOf sheetCfg.A.weight (sheetCfg.factor.getD 1) (fun _ => -1) i.pops)

instance {a : ℚ} {L : String → Bool} {cfg : Cfg ℚ ℚ SimPart (Unit × Vec ℚ 1) (List ℚ)} {sl : Nat}
    (i j : Ideal ℚ ℚ SimPart (Unit × Vec ℚ 1)) : Decidable (LineFree a L cfg sl i j) :=
  inferInstanceAs (Decidable (List.Forall₂ (fun s s' => i.made cfg sl s.name = [] ∧ List.Forall₂ (fun q q' => s.charge ≠ 0 →
    q'.x 0 = q.x 0 + cfg.dt * q'.u 0 ∧ (L s.name = true → a < q.x 0)) s.st.items s'.st.items) i.pops j.pops))

/-- C112 is false: three electrons are at rest, the exact forces at the plates are equal and opposite, no particle is
made, lost or reflected, and yet the momentum changes. -/
theorem C112_false_momentum : ∃ i0 i1, sheetRun trio 1 = .ok (i0, [i1]) ∧
    wallForce 1 0 3 0 0 (chargesOf sheetCfg.A.weight (sheetCfg.factor.getD 1) i0.pops) = 0 ∧
    LineFree 0 (fun _ => true) sheetCfg 2 i0 i1 ∧ sheetMomentum i0 = 0 ∧ sheetMomentum i1 = 7 / 8 := by
  have h : (sheetRun trio 1).toOption.map (fun r => (wallForce 1 0 3 0 0 (chargesOf sheetCfg.A.weight (sheetCfg.factor.getD 1) r.1.pops),
      sheetMomentum r.1, r.2.map (fun i => (decide (LineFree 0 (fun _ => true) sheetCfg 2 r.1 i), sheetMomentum i)))) =
      some (0, 0, [(true, 7 / 8)]) := by decide +kernel
  cases hr : sheetRun trio 1 with
  | error f => rw [hr] at h; cases h
  | ok r =>
    obtain ⟨i0, is⟩ := r
    rw [hr] at h
    simp only [Except.toOption, Option.map_some, Option.some.injEq, Prod.mk.injEq] at h
    rcases is with _ | ⟨i1, _ | ⟨i2, is⟩⟩
    · simp at h
    · simp only [List.map_cons, List.map_nil, List.cons.injEq, and_true, Prod.mk.injEq, decide_eq_true_eq] at h
      exact ⟨i0, i1, rfl, h.1, h.2.2.1, h.2.1, h.2.2.2⟩
    · simp at h

/-- C111 and C112 apply to this step: the force of the mesh is 7/4. -/
example : meshForce 1 sheetX 3 sheetLocate [(-1, 9 / 8), (-1, 9 / 8), (-1, 9 / 4)] = 7 / 4 := by decide +kernel

example {i0 i1 : Ideal ℚ ℚ SimPart (Unit × Vec ℚ 1)} (hr : sheetRun trio 1 = .ok (i0, [i1]))
    (hfree : LineFree 0 (fun _ => true) sheetCfg 2 i0 i1) (hqm : ∀ p ∈ i0.pops, (-1 : ℚ) * p.mass = p.charge) :
    sheetMomentum i1 = sheetMomentum i0 + 1 / 2 *
      (wallForce 1 (sheetX 0) (sheetX 3) 0 0 (chargesOf sheetCfg.A.weight (sheetCfg.factor.getD 1) i0.pops) +
      meshForce 1 sheetX 3 sheetLocate (chargesOf sheetCfg.A.weight (sheetCfg.factor.getD 1) i0.pops)) := by
  obtain ⟨-, h2, h3, -⟩ := sheet_chain trio (by
    intro q hq
    simp only [trio, List.mem_cons, List.not_mem_nil, or_false] at hq
    rcases hq with rfl | rfl | rfl <;> exact ⟨by unfold InItsCell; decide +kernel, rfl⟩) 1 hr
  exact C112_momentum one_pos sheet_grid (cfg := sheetCfg) (fun _ _ _ => rfl) (List.isChain_cons_cons.1 h2).1 (h3 i0 (by simp)) hqm
    (by simpa [sheetX] using hfree)

/-- C111 at a particle that is alone in its cell. -/
example {F : Nat → ℚ} (h : IsField 1 .cartesian sheetX 3 (.num 0) 0 ([(-1, 1 / 2)] ++ (-1, 5 / 4) :: []) F) :
    -1 * F 1 = -1 * sheetField 1 (sheetX 0) (sheetX 3) 0 0 ([(-1, 1 / 2)] ++ (-1, 5 / 4) :: []) (5 / 4) +
      (-1) ^ 2 / 1 * (((sheetX 1 + sheetX 2) / 2 - 5 / 4) / (sheetX 2 - sheetX 1)) :=
  C111_self_force one_pos sheet_grid (by intro q hq; simp at hq; subst hq; decide +kernel) h (by decide)
    (by intro q hq; simp at hq; subst hq; decide +kernel) (by decide +kernel) (by decide +kernel)
example : ∃ F, IsField 1 .cartesian sheetX 3 (.num (0 : ℚ)) 0 ([(-1, 1 / 2)] ++ (-1, 5 / 4) :: []) F :=
  C105_field one_pos sheet_grid _

end Demo

end Dt
