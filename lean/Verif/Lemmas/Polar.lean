import Verif.Lemmas.Sector
import Mathlib.Analysis.SpecialFunctions.Trigonometric.Basic
import Mathlib.Analysis.SpecialFunctions.Complex.Arg

/-!
# Points in polar grids
-/

namespace Dt
namespace Sector
open Real

/-- The direction with the angle `t`. -/
noncomputable def dir (t : ℝ) : Vec ℝ 2 := ![cos t, sin t]

/-- A point between two directions with angle less than π between them has an angle between theirs. -/
theorem between {t u a b : ℝ} (htu : t < u) (hpi : u - t < π) (ha : 0 < a) (hb : 0 < b) :
    ∃ r v, 0 < r ∧ t < v ∧ v < u ∧ ∀ i, a * dir t i + b * dir u i = r * dir v i := by
  set δ := u - t with hδ
  have hδ0 : 0 < δ := by linarith
  have hs : 0 < sin δ := sin_pos_of_pos_of_lt_pi hδ0 hpi
  set z : ℂ := ⟨a + b * cos δ, b * sin δ⟩ with hz
  have him : 0 < z.im := mul_pos hb hs
  have hz0 : z ≠ 0 := by
    intro h
    rw [h] at him
    simp at him
  have hr : 0 < ‖z‖ := norm_pos_iff.2 hz0
  have hc : ‖z‖ * cos z.arg = a + b * cos δ := by rw [Complex.norm_mul_cos_arg]
  have hsn : ‖z‖ * sin z.arg = b * sin δ := by rw [Complex.norm_mul_sin_arg]
  have harg0 : 0 < z.arg := by
    by_contra h
    have := sin_nonpos_of_nonpos_of_neg_pi_le (not_lt.1 h) (Complex.neg_pi_lt_arg z).le
    have : ‖z‖ * sin z.arg ≤ 0 := mul_nonpos_of_nonneg_of_nonpos hr.le this
    rw [hsn] at this
    exact absurd him (not_lt.2 this)
  have hargd : z.arg < δ := by
    by_contra h
    have h1 : sin (δ - z.arg) ≤ 0 := sin_nonpos_of_nonpos_of_neg_pi_le (by linarith) (by have := Complex.arg_le_pi z; linarith)
    have h2 : ‖z‖ * sin (δ - z.arg) = a * sin δ := by
      rw [sin_sub]
      linear_combination sin δ * hc - cos δ * hsn
    have h3 : ‖z‖ * sin (δ - z.arg) ≤ 0 := mul_nonpos_of_nonneg_of_nonpos hr.le h1
    rw [h2] at h3
    exact absurd (mul_pos ha hs) (not_lt.2 h3)
  refine ⟨‖z‖, t + z.arg, hr, by linarith, by linarith, ?_⟩
  have hu : u = t + δ := by rw [hδ]; ring
  intro i
  fin_cases i
  · show a * cos t + b * cos u = ‖z‖ * cos (t + z.arg)
    rw [hu, cos_add, cos_add]
    linear_combination (-cos t) * hc + sin t * hsn
  · show a * sin t + b * sin u = ‖z‖ * sin (t + z.arg)
    rw [hu, sin_add, sin_add]
    linear_combination (-sin t) * hc - cos t * hsn

/-- Polar coordinates are unique in less than one turn. -/
theorem polar_unique {r r' v v' : ℝ} (hr : 0 < r) (hr' : 0 < r') (h1 : v - v' < 2 * π) (h2 : v' - v < 2 * π)
    (h : ∀ i, r * dir v i = r' * dir v' i) : v = v' := by
  have hc : r * cos v = r' * cos v' := h 0
  have hs : r * sin v = r' * sin v' := h 1
  have hrr : r = r' := by
    have e1 : r ^ 2 = (r * cos v) ^ 2 + (r * sin v) ^ 2 := by
      have := sin_sq_add_cos_sq v
      linear_combination (-r ^ 2) * this
    have e2 : r' ^ 2 = (r' * cos v') ^ 2 + (r' * sin v') ^ 2 := by
      have := sin_sq_add_cos_sq v'
      linear_combination (-r' ^ 2) * this
    rw [← hc, ← hs, ← e1] at e2
    nlinarith
  subst hrr
  have hc' := mul_left_cancel₀ hr.ne' hc
  have hs' := mul_left_cancel₀ hr.ne' hs
  have : cos (v - v') = 1 := by
    rw [cos_sub, hc', hs']
    have := sin_sq_add_cos_sq v'
    linear_combination this
  have := (cos_eq_one_iff_of_lt_of_lt (by linarith) (by linarith)).1 this
  linarith

/-- Two directions with an angle less than π between them are independent. -/
theorem dir_indep {t u a b a' b' : ℝ} (htu : t < u) (hpi : u - t < π)
    (h : ∀ i, a * dir t i + b * dir u i = a' * dir t i + b' * dir u i) : a = a' ∧ b = b' := by
  have hs : 0 < sin (u - t) := sin_pos_of_pos_of_lt_pi (by linarith) hpi
  have hc : a * cos t + b * cos u = a' * cos t + b' * cos u := h 0
  have hsn : a * sin t + b * sin u = a' * sin t + b' * sin u := h 1
  rw [sin_sub] at hs
  constructor
  · refine mul_right_cancel₀ hs.ne' ?_
    linear_combination sin u * hc - cos u * hsn
  · refine mul_right_cancel₀ hs.ne' ?_
    linear_combination cos t * hsn - sin t * hc

end Sector
end Dt
