import Verif.Spec.Poisson
import Mathlib.Algebra.BigOperators.Ring.Finset
import Mathlib.Algebra.Order.BigOperators.Ring.Finset
import Mathlib.Tactic.Linarith
import Mathlib.Tactic.Ring
import Mathlib.Tactic.FieldSimp
import Mathlib.Tactic.Positivity

/-! # Lemmas on the one-dimensional Poisson solver -/

set_option linter.unusedSectionVars false

namespace Dt.Poisson
open Spec
variable {K : Type} [Field K] [LinearOrder K] [IsStrictOrderedRing K]

section
variable {eps : K} {co : Coord} {x : Nat → K} {N : Nat}

/-- The coefficient of a cell. -/
def coef (eps : K) (co : Coord) (x : Nat → K) (c : Nat) : K :=
  eps * weight co (x c) (x (c + 1)) / ((x (c + 1) - x c) * (x (c + 1) - x c))

theorem slope_eq (x : Nat → K) (c i : Nat) : slope x c i =
    (if c = i then -1 / (x (c + 1) - x c) else 0) + (if c + 1 = i then 1 / (x (c + 1) - x c) else 0) := by
  unfold slope
  by_cases h1 : i = c
  · subst h1; simp
  · by_cases h2 : i = c + 1
    · subst h2; simp
    · rw [if_neg h1, if_neg h2, if_neg (fun h => h1 h.symm), if_neg (fun h => h2 h.symm), add_zero]

theorem slope_sum {c : Nat} (hc : c < N) (U : Nat → K) :
    ∑ j ∈ Finset.range (N + 1), slope x c j * U j = (U (c + 1) - U c) / (x (c + 1) - x c) := by
  simp only [slope_eq, add_mul, Finset.sum_add_distrib, ite_mul, zero_mul, Finset.sum_ite_eq, Finset.mem_range]
  rw [if_pos (by omega), if_pos (by omega)]
  ring

theorem slope_cells {i : Nat} (hi : i ≤ N) (g : Nat → K) :
    ∑ c ∈ Finset.range N, slope x c i * g c =
      (if i < N then -(g i / (x (i + 1) - x i)) else 0) + (if 0 < i then g (i - 1) / (x i - x (i - 1)) else 0) := by
  simp only [slope_eq, add_mul, Finset.sum_add_distrib, ite_mul, zero_mul, Finset.sum_ite_eq', Finset.mem_range]
  congr 1
  · split
    · ring
    · rfl
  · cases i with
    | zero => simp
    | succ i =>
      simp only [Nat.add_right_cancel_iff, Finset.sum_ite_eq', Finset.mem_range, Nat.add_sub_cancel]
      rw [if_pos (by omega), if_pos (by omega)]
      ring

/-- A row of the matrix without boundary conditions. -/
theorem stiffness_row {i : Nat} (hi : i ≤ N) (U : Nat → K) :
    ∑ j ∈ Finset.range (N + 1), stiffness eps co x N i j * U j =
      (if 0 < i then coef eps co x (i - 1) * (U i - U (i - 1)) else 0) -
        (if i < N then coef eps co x i * (U (i + 1) - U i) else 0) := by
  have h1 : ∑ j ∈ Finset.range (N + 1), stiffness eps co x N i j * U j =
      ∑ c ∈ Finset.range N, slope x c i * (eps * weight co (x c) (x (c + 1)) *
        ((U (c + 1) - U c) / (x (c + 1) - x c))) := by
    unfold stiffness
    simp only [Finset.sum_mul]
    rw [Finset.sum_comm]
    refine Finset.sum_congr rfl fun c hc => ?_
    rw [← slope_sum (Finset.mem_range.1 hc), Finset.mul_sum, Finset.mul_sum]
    refine Finset.sum_congr rfl fun j _ => ?_
    ring
  rw [h1, slope_cells hi]
  unfold coef
  rcases Nat.eq_zero_or_pos i with rfl | hp
  · simp only [lt_irrefl, if_false]
    split
    · simp only [add_zero, zero_sub, neg_inj]
      simp only [div_eq_mul_inv, mul_inv]; ring
    · simp
  · obtain ⟨k, rfl⟩ : ∃ k, i = k + 1 := ⟨i - 1, by omega⟩
    simp only [Nat.add_sub_cancel, if_pos hp]
    split
    · simp only [div_eq_mul_inv, mul_inv]; ring
    · simp only [div_eq_mul_inv, mul_inv]; ring

theorem weight_pos (hg : Grid co x N) {c : Nat} (hc : c < N) : 0 < weight co (x c) (x (c + 1)) := by
  have hlt := hg.lt c hc
  cases co with
  | cartesian => exact sub_pos.2 hlt
  | spherical =>
    have h0 : ∀ c ≤ N, 0 ≤ x c := by
      intro c
      induction c with
      | zero => intro _; exact hg.nonneg rfl
      | succ c ih => intro h; exact (ih (by omega)).trans (hg.lt c h).le
    have hx := h0 c hc.le
    show 0 < (x (c + 1) * x (c + 1) * x (c + 1) - x c * x c * x c) / 3
    have : x (c + 1) * x (c + 1) * x (c + 1) - x c * x c * x c =
        (x (c + 1) - x c) * (x c * x c + x c * x (c + 1) + x (c + 1) * x (c + 1)) := by ring
    rw [this]
    have hp : 0 < x (c + 1) - x c := sub_pos.2 hlt
    have hb : 0 < x (c + 1) := lt_of_le_of_lt hx hlt
    positivity

theorem coef_pos (he : 0 < eps) (hg : Grid co x N) {c : Nat} (hc : c < N) : 0 < coef eps co x c := by
  unfold coef
  have h1 := weight_pos hg hc
  have h2 : 0 < x (c + 1) - x c := sub_pos.2 (hg.lt c hc)
  positivity

theorem area_eq (hg : Grid co x N) {c : Nat} (hc : c < N) :
    eps * area co (x c) (x (c + 1)) / (x (c + 1) - x c) = coef eps co x c := by
  have h2 : x (c + 1) - x c ≠ 0 := (sub_pos.2 (hg.lt c hc)).ne'
  unfold coef
  rw [div_eq_div_iff h2 (mul_ne_zero h2 h2)]
  cases co with
  | cartesian => simp only [area, weight]; ring
  | spherical => simp only [area, weight]; ring

theorem grid_mono (hg : Grid co x N) : ∀ {a b : Nat}, a ≤ b → b ≤ N → x a ≤ x b := by
  intro a b hab
  induction b, hab using Nat.le_induction with
  | base => intro _; exact le_rfl
  | succ b _ ih => intro h; exact (ih (by omega)).trans (hg.lt b h).le

theorem grid_lt (hg : Grid co x N) {a b : Nat} (hab : a < b) (hb : b ≤ N) : x a < x b :=
  lt_of_lt_of_le (hg.lt a (by omega)) (grid_mono hg hab hb)

/-! ### Boundary conditions -/

/-- The equations of a solver with both ends given. -/
def TwoEnds (eps : K) (co : Coord) (x : Nat → K) (N : Nat) (v0 vN : K) (Q U : Nat → K) : Prop :=
  U 0 = v0 ∧ U N = vN ∧ ∀ i, 0 < i → i < N →
    coef eps co x (i - 1) * (U i - U (i - 1)) - coef eps co x i * (U (i + 1) - U i) = Q i

/-- The equations of a solver with only the last end given. -/
def OneEnd (eps : K) (co : Coord) (x : Nat → K) (N : Nat) (vN : K) (Q U : Nat → K) : Prop :=
  U N = vN ∧ -(coef eps co x 0 * (U 1 - U 0)) = Q 0 ∧ ∀ i, 0 < i → i < N →
    coef eps co x (i - 1) * (U i - U (i - 1)) - coef eps co x i * (U (i + 1) - U i) = Q i

theorem unit_row {i : Nat} (hi : i ≤ N) (U : Nat → K) :
    ∑ j ∈ Finset.range (N + 1), (if i = j then 1 else 0) * U j = U i := by
  simp only [ite_mul, one_mul, zero_mul, Finset.sum_ite_eq, Finset.mem_range]
  rw [if_pos (by omega)]

theorem solves_two {marker : Nat → Int} {lo hi : Int} (hN : 1 ≤ N) (hm : Marks marker N lo hi) {v0 vN : K} {b U : List K} (hb : b.length = N + 1) :
    Solves N (applyMat marker [(lo, v0), (hi, vN)] (stiffness eps co x N)) (applyVec marker [(lo, v0), (hi, vN)] b) U ↔
      U.length = N + 1 ∧ TwoEnds eps co x N v0 vN (fun i => b.getD i 0) (fun i => U.getD i 0) := by
  unfold Solves
  refine and_congr_right fun _ => ?_
  have hv : ∀ i ≤ N, (applyVec marker [(lo, v0), (hi, vN)] b).getD i 0 =
      if marker i = hi then vN else if marker i = lo then v0 else b.getD i 0 := by
    intro i hi'
    have : i < b.length := by omega
    simp [applyVec, List.getD_eq_getElem?_getD, this]
  have hM : ∀ i j, applyMat marker [(lo, v0), (hi, vN)] (stiffness eps co x N) i j =
      if marker i = hi then (if i = j then 1 else 0) else if marker i = lo then (if i = j then 1 else 0)
        else stiffness eps co x N i j := fun _ _ => rfl
  constructor
  · intro h
    refine ⟨?_, ?_, ?_⟩
    · have := h 0 (by omega)
      simp only [hM, hv 0 (by omega), hm.first, if_neg hm.ne, if_true] at this
      rw [unit_row (by omega)] at this
      exact this
    · have := h N le_rfl
      simp only [hM, hv N le_rfl, hm.last, if_true] at this
      rw [unit_row le_rfl] at this
      exact this
    · intro i h0 h1
      have := h i h1.le
      simp only [hM, hv i h1.le, if_neg (hm.inner i h0 h1).1, if_neg (hm.inner i h0 h1).2] at this
      rw [stiffness_row h1.le, if_pos h0, if_pos h1] at this
      exact this
  · rintro ⟨h1, h2, h3⟩ i hi'
    rw [hv i hi']
    simp only [hM]
    rcases Nat.eq_zero_or_pos i with rfl | h0
    · simp only [hm.first, if_neg hm.ne, if_true]
      rw [unit_row (by omega)]
      exact h1
    · rcases Nat.lt_or_eq_of_le hi' with hlt | rfl
      · simp only [if_neg (hm.inner i h0 hlt).1, if_neg (hm.inner i h0 hlt).2]
        rw [stiffness_row hlt.le, if_pos h0, if_pos hlt]
        exact h3 i h0 hlt
      · simp only [hm.last, if_true]
        rw [unit_row le_rfl]
        exact h2

theorem solves_one {marker : Nat → Int} {lo hi : Int} (hN : 1 ≤ N) (hm : Marks marker N lo hi) {vN : K} {b U : List K} (hb : b.length = N + 1) :
    Solves N (applyMat marker [(hi, vN)] (stiffness eps co x N)) (applyVec marker [(hi, vN)] b) U ↔
      U.length = N + 1 ∧ OneEnd eps co x N vN (fun i => b.getD i 0) (fun i => U.getD i 0) := by
  unfold Solves
  refine and_congr_right fun _ => ?_
  have hv : ∀ i ≤ N, (applyVec marker [(hi, vN)] b).getD i 0 = if marker i = hi then vN else b.getD i 0 := by
    intro i hi'
    have : i < b.length := by omega
    simp [applyVec, List.getD_eq_getElem?_getD, this]
  have hM : ∀ i j, applyMat marker [(hi, vN)] (stiffness eps co x N) i j =
      if marker i = hi then (if i = j then 1 else 0) else stiffness eps co x N i j := fun _ _ => rfl
  constructor
  · intro h
    refine ⟨?_, ?_, ?_⟩
    · have := h N le_rfl
      simp only [hM, hv N le_rfl, hm.last, if_true] at this
      rw [unit_row le_rfl] at this
      exact this
    · have := h 0 (by omega)
      simp only [hM, hv 0 (by omega), hm.first, if_neg hm.ne] at this
      rw [stiffness_row (by omega), if_neg (by omega), if_pos (by omega), zero_sub] at this
      exact this
    · intro i h0 h1
      have := h i h1.le
      simp only [hM, hv i h1.le, if_neg (hm.inner i h0 h1).2] at this
      rw [stiffness_row h1.le, if_pos h0, if_pos h1] at this
      exact this
  · rintro ⟨h1, h2, h3⟩ i hi'
    rw [hv i hi']
    simp only [hM]
    rcases Nat.eq_zero_or_pos i with rfl | h0
    · simp only [hm.first, if_neg hm.ne]
      rw [stiffness_row (by omega), if_neg (by omega), if_pos (by omega), zero_sub]
      exact h2
    · rcases Nat.lt_or_eq_of_le hi' with hlt | rfl
      · simp only [if_neg (hm.inner i h0 hlt).2]
        rw [stiffness_row hlt.le, if_pos h0, if_pos hlt]
        exact h3 i h0 hlt
      · simp only [hm.last, if_true]
        rw [unit_row le_rfl]
        exact h1

/-! ### Existence and uniqueness -/

/-- From the flux in each cell. -/
theorem two_flux {v0 vN : K} {Q U : Nat → K} (h : TwoEnds eps co x N v0 vN Q U) :
    ∀ c < N, coef eps co x c * (U (c + 1) - U c) = coef eps co x 0 * (U 1 - U 0) - ∑ i ∈ Finset.Ioc 0 c, Q i := by
  intro c
  induction c with
  | zero => intro _; simp
  | succ c ih =>
    intro hc
    have h1 := ih (by omega)
    have h2 := h.2.2 (c + 1) (by omega) hc
    rw [Nat.add_sub_cancel] at h2
    rw [Finset.sum_Ioc_succ_top (by omega)]
    linarith

theorem sum_pos_inv (he : 0 < eps) (hg : Grid co x N) : 0 < ∑ c ∈ Finset.range N, (coef eps co x c)⁻¹ := by
  refine Finset.sum_pos (fun c hc => inv_pos.2 (coef_pos he hg (Finset.mem_range.1 hc))) ?_
  exact Finset.nonempty_range_iff.2 (by have := hg.pos; omega)

theorem two_unique (he : 0 < eps) (hg : Grid co x N) {v0 vN : K} {Q U U' : Nat → K} (h : TwoEnds eps co x N v0 vN Q U)
    (h' : TwoEnds eps co x N v0 vN Q U') : ∀ i ≤ N, U i = U' i := by
  have hd : ∀ c ≤ N, U c - U' c = (coef eps co x 0 * (U 1 - U 0) - coef eps co x 0 * (U' 1 - U' 0)) *
      ∑ k ∈ Finset.range c, (coef eps co x k)⁻¹ := by
    intro c
    induction c with
    | zero => intro _; rw [h.1, h'.1]; simp
    | succ c ih =>
      intro hc
      have f1 := two_flux h c hc
      have f2 := two_flux h' c hc
      have hk := (coef_pos he hg hc).ne'
      rw [Finset.sum_range_succ, mul_add, ← ih (by omega)]
      have : U (c + 1) - U c - (U' (c + 1) - U' c) =
          (coef eps co x 0 * (U 1 - U 0) - coef eps co x 0 * (U' 1 - U' 0)) * (coef eps co x c)⁻¹ := by
        rw [← div_eq_mul_inv, eq_div_iff hk]
        linarith
      linarith
  have hN := hd N le_rfl
  rw [h.2.1, h'.2.1, sub_self] at hN
  rcases mul_eq_zero.1 hN.symm with h0 | h0
  · intro i hi
    have := hd i hi
    rw [h0, zero_mul] at this
    linarith
  · exact absurd h0 (sum_pos_inv he hg).ne'

theorem two_exists (he : 0 < eps) (hg : Grid co x N) (v0 vN : K) (Q : Nat → K) : ∃ U, TwoEnds eps co x N v0 vN Q U := by
  set S : Nat → K := fun c => ∑ k ∈ Finset.range c, (coef eps co x k)⁻¹ with hS
  set T : Nat → K := fun c => ∑ k ∈ Finset.range c, (∑ i ∈ Finset.Ioc 0 k, Q i) * (coef eps co x k)⁻¹ with hT
  have hpos : S N ≠ 0 := (sum_pos_inv he hg).ne'
  set F := (vN - v0 + T N) / S N with hF
  refine ⟨fun c => v0 + F * S c - T c, ?_, ?_, ?_⟩
  · simp [hS, hT]
  · have : F * S N = vN - v0 + T N := div_mul_cancel₀ _ hpos
    show v0 + F * S N - T N = vN
    rw [this]; ring
  · have hfl : ∀ c < N, coef eps co x c * ((v0 + F * S (c + 1) - T (c + 1)) - (v0 + F * S c - T c)) =
        F - ∑ i ∈ Finset.Ioc 0 c, Q i := by
      intro c hc
      have hk := (coef_pos he hg hc).ne'
      have e1 : S (c + 1) = S c + (coef eps co x c)⁻¹ := Finset.sum_range_succ _ _
      have e2 : T (c + 1) = T c + (∑ i ∈ Finset.Ioc 0 c, Q i) * (coef eps co x c)⁻¹ := Finset.sum_range_succ _ _
      rw [e1, e2]
      have : coef eps co x c * (v0 + F * (S c + (coef eps co x c)⁻¹) - (T c + (∑ i ∈ Finset.Ioc 0 c, Q i) * (coef eps co x c)⁻¹) -
          (v0 + F * S c - T c)) = (F - ∑ i ∈ Finset.Ioc 0 c, Q i) * (coef eps co x c * (coef eps co x c)⁻¹) := by ring
      rw [this, mul_inv_cancel₀ hk, mul_one]
    intro i h0 h1
    obtain ⟨k, rfl⟩ : ∃ k, i = k + 1 := ⟨i - 1, by omega⟩
    rw [Nat.add_sub_cancel]
    have a1 := hfl k (by omega)
    have a2 := hfl (k + 1) h1
    dsimp only
    rw [a1, a2, Finset.sum_Ioc_succ_top (by omega)]
    ring

theorem one_flux {vN : K} {Q U : Nat → K} (h : OneEnd eps co x N vN Q U) :
    ∀ c < N, -(coef eps co x c * (U (c + 1) - U c)) = ∑ i ∈ Finset.range (c + 1), Q i := by
  intro c
  induction c with
  | zero => intro _; simpa using h.2.1
  | succ c ih =>
    intro hc
    have h1 := ih (by omega)
    have h2 := h.2.2 (c + 1) (by omega) hc
    rw [Nat.add_sub_cancel] at h2
    rw [Finset.sum_range_succ]
    linarith

theorem one_unique (he : 0 < eps) (hg : Grid co x N) {vN : K} {Q U U' : Nat → K} (h : OneEnd eps co x N vN Q U)
    (h' : OneEnd eps co x N vN Q U') : ∀ i ≤ N, U i = U' i := by
  intro i hi
  have key : ∀ m ≤ N, U (N - m) = U' (N - m) := by
    intro m
    induction m with
    | zero => intro _; rw [Nat.sub_zero, h.1, h'.1]
    | succ m ih =>
      intro hm
      have e := ih (by omega)
      have hs : N - m = N - (m + 1) + 1 := by omega
      have f1 := one_flux h (N - (m + 1)) (by omega)
      have f2 := one_flux h' (N - (m + 1)) (by omega)
      rw [← hs] at f1 f2
      have hk := (coef_pos he hg (c := N - (m + 1)) (by omega)).ne'
      have : coef eps co x (N - (m + 1)) * (U (N - m) - U (N - (m + 1))) =
          coef eps co x (N - (m + 1)) * (U' (N - m) - U' (N - (m + 1))) := by linarith
      have := mul_left_cancel₀ hk this
      linarith
  have := key (N - i) (by omega)
  rwa [show N - (N - i) = i by omega] at this

theorem one_exists (he : 0 < eps) (hg : Grid co x N) (vN : K) (Q : Nat → K) : ∃ U, OneEnd eps co x N vN Q U := by
  set T : Nat → K := fun c => ∑ k ∈ Finset.range c, (∑ i ∈ Finset.range (k + 1), Q i) * (coef eps co x k)⁻¹ with hT
  have hfl : ∀ c < N, coef eps co x c * ((vN + T N - T (c + 1)) - (vN + T N - T c)) = - ∑ i ∈ Finset.range (c + 1), Q i := by
    intro c hc
    have hk := (coef_pos he hg hc).ne'
    have e2 : T (c + 1) = T c + (∑ i ∈ Finset.range (c + 1), Q i) * (coef eps co x c)⁻¹ := Finset.sum_range_succ _ _
    rw [e2]
    have : coef eps co x c * (vN + T N - (T c + (∑ i ∈ Finset.range (c + 1), Q i) * (coef eps co x c)⁻¹) - (vN + T N - T c)) =
        -(∑ i ∈ Finset.range (c + 1), Q i) * (coef eps co x c * (coef eps co x c)⁻¹) := by ring
    rw [this, mul_inv_cancel₀ hk, mul_one]
  refine ⟨fun c => vN + T N - T c, by simp, ?_, ?_⟩
  · have := hfl 0 (by have := hg.pos; omega)
    dsimp only
    simp only [Nat.zero_add] at this
    rw [this]
    simp
  · intro i h0 h1
    obtain ⟨k, rfl⟩ : ∃ k, i = k + 1 := ⟨i - 1, by omega⟩
    rw [Nat.add_sub_cancel]
    have a1 := hfl k (by omega)
    have a2 := hfl (k + 1) h1
    dsimp only
    rw [a1, a2, Finset.sum_range_succ _ (k + 1)]
    ring

/-! ### The field -/

theorem eField_eq (x : Nat → K) (phi : List K) {c : Nat} (hc : c < N) :
    eField (negE x N phi) c = -((phi.getD (c + 1) 0 - phi.getD c 0) / (x (c + 1) - x c)) := by
  unfold eField negE
  rw [List.getD_eq_getElem?_getD, List.getElem?_map, List.getElem?_range hc]
  rfl

theorem flux_eq (hg : Grid co x N) (phi : List K) {c : Nat} (hc : c < N) :
    flux eps co x (eField (negE x N phi)) c = -(coef eps co x c * (phi.getD (c + 1) 0 - phi.getD c 0)) := by
  unfold flux
  rw [eField_eq x phi hc, ← area_eq hg hc]
  simp only [div_eq_mul_inv]
  ring

theorem gauss_of (hg : Grid co x N) {Q : Nat → K} {phi : List K}
    (h : ∀ i, 0 < i → i < N → coef eps co x (i - 1) * (phi.getD i 0 - phi.getD (i - 1) 0) -
      coef eps co x i * (phi.getD (i + 1) 0 - phi.getD i 0) = Q i) :
    Gauss eps co x N Q (eField (negE x N phi)) := by
  intro a b hab
  induction b, hab using Nat.le_induction with
  | base => intro _; simp
  | succ b hb ih =>
    intro hlt
    have h1 := ih (by omega)
    have h2 := h (b + 1) (by omega) hlt
    rw [Nat.add_sub_cancel] at h2
    rw [Finset.sum_Ioc_succ_top (by omega), ← h1, ← h2, flux_eq hg phi hlt, flux_eq hg phi (c := b) (by omega)]
    ring

end

end Dt.Poisson
