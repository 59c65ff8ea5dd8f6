import Mathlib.Tactic.Linarith
import Mathlib.Tactic.Ring
import Mathlib.Tactic.FieldSimp
import Mathlib.Tactic.LinearCombination
import Mathlib.LinearAlgebra.FiniteDimensional.Lemmas
import Mathlib.LinearAlgebra.Dimension.Constructions
import Verif.Lemmas.Geometry
import Verif.Model.CppGeometry
import Verif.Spec.Hull

set_option linter.unusedSectionVars false

namespace Dt
variable {K : Type} [Field K] [LinearOrder K] [IsStrictOrderedRing K]

theorem between_iff (p0 p1 x : K) :
    between p0 p1 x = true ↔ (p0 ≤ x ∧ x ≤ p1) ∨ (p1 ≤ x ∧ x ≤ p0) := by
  unfold between
  by_cases h : p0 > p1
  · rw [if_pos h]
    simp only [Bool.and_eq_true, decide_eq_true_eq]
    constructor
    · intro h1; exact Or.inr h1
    · rintro (⟨a, b⟩ | h1)
      · exact absurd (le_trans a b) (not_le.2 h)
      · exact h1
  · rw [if_neg h]
    simp only [Bool.and_eq_true, decide_eq_true_eq]
    constructor
    · intro h1; exact Or.inl h1
    · rintro (h1 | ⟨a, b⟩)
      · exact h1
      · have := le_antisymm (not_lt.1 h) (le_trans a b)
        subst this
        exact ⟨a, b⟩

/-- One-dimensional convex combinations. -/
theorem between_combo (p0 p1 x : K) :
    between p0 p1 x = true ↔ ∃ t, 0 ≤ t ∧ t ≤ 1 ∧ x = (1 - t) * p0 + t * p1 := by
  rw [between_iff]
  constructor
  · intro h
    by_cases e : p0 = p1
    · subst e
      refine ⟨0, le_refl _, zero_le_one, ?_⟩
      rcases h with h | h
      · linarith [h.1, h.2]
      · linarith [h.1, h.2]
    · have hd : p1 - p0 ≠ 0 := sub_ne_zero.2 (Ne.symm e)
      refine ⟨(x - p0) / (p1 - p0), ?_, ?_, by field_simp; ring⟩
      · rcases h with h | h
        · exact div_nonneg (by linarith [h.1]) (by linarith [h.1, h.2])
        · exact div_nonneg_of_nonpos (by linarith [h.2]) (by linarith [h.1, h.2])
      · rcases h with h | h
        · have : 0 < p1 - p0 := lt_of_le_of_ne (by linarith [h.1, h.2]) (Ne.symm hd)
          rw [div_le_one this]; linarith [h.2]
        · have : p1 - p0 < 0 := lt_of_le_of_ne (by linarith [h.1, h.2]) hd
          rw [div_le_one_of_neg this]; linarith [h.1]
  · rintro ⟨t, h0, h1, rfl⟩
    rcases le_total p0 p1 with h | h
    · left; constructor <;> nlinarith
    · right; constructor <;> nlinarith

theorem inHull2 (a b p : Vec K 1) : InHull ![a, b] p ↔ between (a 0) (b 0) (p 0) = true := by
  rw [between_combo]
  unfold InHull
  constructor
  · rintro ⟨w, hw, hs, hp⟩
    simp only [Fin.sum_univ_two, Matrix.cons_val_zero, Matrix.cons_val_one] at hs hp
    have := hp 0
    refine ⟨w 1, hw 1, by linarith [hw 0], ?_⟩
    rw [this]; linear_combination (a 0) * hs
  · rintro ⟨t, h0, h1, h⟩
    refine ⟨![1 - t, t], ?_, ?_, ?_⟩
    · intro i; fin_cases i
      · simpa using h1
      · simpa using h0
    · simp
    · intro c
      have : c = 0 := Subsingleton.elim _ _
      subst this
      simpa [Fin.sum_univ_two] using h

theorem inHull3 (a b c p : Vec K 2) : InHull ![a, b, c] p ↔
    ∃ u v w, 0 ≤ u ∧ 0 ≤ v ∧ 0 ≤ w ∧ u + v + w = 1 ∧ p 0 = u * a 0 + v * b 0 + w * c 0 ∧
      p 1 = u * a 1 + v * b 1 + w * c 1 := by
  unfold InHull
  constructor
  · rintro ⟨w, hw, hs, hp⟩
    refine ⟨w 0, w 1, w 2, hw 0, hw 1, hw 2, ?_, ?_, ?_⟩
    · simpa [Fin.sum_univ_three] using hs
    · simpa [Fin.sum_univ_three] using hp 0
    · simpa [Fin.sum_univ_three] using hp 1
  · rintro ⟨u, v, w, hu, hv, hw, hs, h0, h1⟩
    refine ⟨![u, v, w], ?_, ?_, ?_⟩
    · intro i; fin_cases i <;> simpa
    · simpa [Fin.sum_univ_three] using hs
    · intro i; fin_cases i
      · simpa [Fin.sum_univ_three] using h0
      · simpa [Fin.sum_univ_three] using h1

theorem inHull4 (a b c d p : Vec K 3) : InHull ![a, b, c, d] p ↔
    ∃ s u v w, 0 ≤ s ∧ 0 ≤ u ∧ 0 ≤ v ∧ 0 ≤ w ∧ s + u + v + w = 1 ∧
      p 0 = s * a 0 + u * b 0 + v * c 0 + w * d 0 ∧
      p 1 = s * a 1 + u * b 1 + v * c 1 + w * d 1 ∧
      p 2 = s * a 2 + u * b 2 + v * c 2 + w * d 2 := by
  unfold InHull
  constructor
  · rintro ⟨w, hw, hs, hp⟩
    refine ⟨w 0, w 1, w 2, w 3, hw 0, hw 1, hw 2, hw 3, ?_, ?_, ?_, ?_⟩
    · simpa [Fin.sum_univ_four] using hs
    · simpa [Fin.sum_univ_four] using hp 0
    · simpa [Fin.sum_univ_four] using hp 1
    · simpa [Fin.sum_univ_four] using hp 2
  · rintro ⟨s, u, v, w, hs0, hu, hv, hw, hs, h0, h1, h2⟩
    refine ⟨![s, u, v, w], ?_, ?_, ?_⟩
    · intro i; fin_cases i <;> simpa
    · simpa [Fin.sum_univ_four] using hs
    · intro i; fin_cases i
      · simpa [Fin.sum_univ_four] using h0
      · simpa [Fin.sum_univ_four] using h1
      · simpa [Fin.sum_univ_four] using h2

/-- A segment of the plane. -/
theorem segment2 (a b p : Vec K 2) :
    (orient2d a b p = 0 ∧ between (a 0) (b 0) (p 0) = true ∧ between (a 1) (b 1) (p 1) = true) ↔
      ∃ t, 0 ≤ t ∧ t ≤ 1 ∧ p 0 = (1 - t) * a 0 + t * b 0 ∧ p 1 = (1 - t) * a 1 + t * b 1 := by
  constructor
  · rintro ⟨ho, hx, hy⟩
    unfold orient2d at ho
    rw [between_combo] at hx hy
    obtain ⟨t, t0, t1, ht⟩ := hx
    obtain ⟨s, s0, s1, hs⟩ := hy
    by_cases e : a 0 = b 0
    · refine ⟨s, s0, s1, ?_, hs⟩
      rw [ht, e]; ring
    · refine ⟨t, t0, t1, ht, ?_⟩
      have hd : b 0 - a 0 ≠ 0 := sub_ne_zero.2 (Ne.symm e)
      have : (b 0 - a 0) * (p 1 - ((1 - t) * a 1 + t * b 1)) = 0 := by
        rw [ht] at ho
        linear_combination ho
      rcases mul_eq_zero.1 this with h | h
      · exact absurd h hd
      · linarith
  · rintro ⟨t, t0, t1, h0, h1⟩
    refine ⟨?_, ?_, ?_⟩
    · unfold orient2d; rw [h0, h1]; ring
    · rw [between_combo]; exact ⟨t, t0, t1, h0⟩
    · rw [between_combo]; exact ⟨t, t0, t1, h1⟩

/-- In the triangle the three determinants are the barycentric coordinates times the area. -/
theorem bary2 (p0 p1 p2 pt : Vec K 2) :
    orient2d p1 p2 pt + orient2d p2 p0 pt + orient2d p0 p1 pt = orient2d p0 p1 p2 ∧
    orient2d p1 p2 pt * p0 0 + orient2d p2 p0 pt * p1 0 + orient2d p0 p1 pt * p2 0 =
      orient2d p0 p1 p2 * pt 0 ∧
    orient2d p1 p2 pt * p0 1 + orient2d p2 p0 pt * p1 1 + orient2d p0 p1 pt * p2 1 =
      orient2d p0 p1 p2 * pt 1 := by
  unfold orient2d
  refine ⟨by ring, by ring, by ring⟩

theorem bary2_of {p0 p1 p2 pt : Vec K 2} {u v w : K} (hs : u + v + w = 1)
    (h0 : pt 0 = u * p0 0 + v * p1 0 + w * p2 0) (h1 : pt 1 = u * p0 1 + v * p1 1 + w * p2 1) :
    orient2d p1 p2 pt = u * orient2d p0 p1 p2 ∧ orient2d p2 p0 pt = v * orient2d p0 p1 p2 ∧
      orient2d p0 p1 pt = w * orient2d p0 p1 p2 := by
  have hu : u = 1 - v - w := by linear_combination hs
  subst hu
  unfold orient2d
  rw [h0, h1]
  refine ⟨by ring, by ring, by ring⟩

/-- A point of the segment. -/
def OnSeg (a b p : Vec K 2) : Prop :=
  ∃ t, 0 ≤ t ∧ t ≤ 1 ∧ p 0 = (1 - t) * a 0 + t * b 0 ∧ p 1 = (1 - t) * a 1 + t * b 1

theorem line_cases {a b c : Vec K 2} {s : K} (h0 : c 0 = a 0 + s * (b 0 - a 0))
    (h1 : c 1 = a 1 + s * (b 1 - a 1)) : OnSeg a b c ∨ OnSeg b c a ∨ OnSeg c a b := by
  rcases lt_or_ge s 0 with hs | hs
  · right; left
    have : (1 : K) - s ≠ 0 := by linarith
    have hp : 0 < 1 - s := by linarith
    refine ⟨1 / (1 - s), by positivity, by rw [div_le_one hp]; linarith, ?_, ?_⟩
    · rw [h0]; field_simp; ring
    · rw [h1]; field_simp; ring
  · rcases le_or_gt s 1 with h | h
    · left; exact ⟨s, hs, h, by rw [h0]; ring, by rw [h1]; ring⟩
    · right; right
      have hp : 0 < s := by linarith
      have hne : s ≠ 0 := ne_of_gt hp
      refine ⟨(s - 1) / s, div_nonneg (by linarith) hs, by rw [div_le_one hp]; linarith, ?_, ?_⟩
      · rw [h0]; field_simp; ring
      · rw [h1]; field_simp; ring

theorem collinear_cases {a b c : Vec K 2} (h : orient2d a b c = 0) :
    OnSeg a b c ∨ OnSeg b c a ∨ OnSeg c a b := by
  by_cases e0 : a 0 = b 0
  · by_cases e1 : a 1 = b 1
    · right; left
      exact ⟨0, le_refl _, zero_le_one, by rw [e0]; ring, by rw [e1]; ring⟩
    · have hd : b 1 - a 1 ≠ 0 := sub_ne_zero.2 (Ne.symm e1)
      refine line_cases (s := (c 1 - a 1) / (b 1 - a 1)) ?_ (by field_simp; ring)
      have : (b 1 - a 1) * (c 0 - a 0) = 0 := by
        unfold orient2d at h; rw [e0] at h ⊢; linear_combination - h
      rcases mul_eq_zero.1 this with h' | h'
      · exact absurd h' hd
      · rw [e0]; rw [e0] at h'; linear_combination h'
  · have hd : b 0 - a 0 ≠ 0 := sub_ne_zero.2 (Ne.symm e0)
    refine line_cases (s := (c 0 - a 0) / (b 0 - a 0)) (by field_simp; ring) ?_
    have : (b 0 - a 0) * (c 1 - a 1) = (c 0 - a 0) * (b 1 - a 1) := by
      unfold orient2d at h; linear_combination h
    field_simp
    linear_combination this

theorem onSeg_mix {a b c p : Vec K 2} {u v w : K} (hc : OnSeg a b c) (hu : 0 ≤ u) (hv : 0 ≤ v)
    (hw : 0 ≤ w) (hs : u + v + w = 1) (h0 : p 0 = u * a 0 + v * b 0 + w * c 0)
    (h1 : p 1 = u * a 1 + v * b 1 + w * c 1) : OnSeg a b p := by
  obtain ⟨t, t0, t1, c0, c1⟩ := hc
  have hu' : u = 1 - v - w := by linear_combination hs
  refine ⟨v + w * t, by positivity, by nlinarith, ?_, ?_⟩
  · rw [h0, c0, hu']; ring
  · rw [h1, c1, hu']; ring

theorem insideTriangle_iff (p0 p1 p2 pt : Vec K 2) :
    insideTriangle p0 p1 p2 pt = true ↔ InHull ![p0, p1, p2] pt := by
  rw [inHull3]
  unfold insideTriangle
  dsimp only
  obtain ⟨b0, b1, b2⟩ := bary2 p0 p1 p2 pt
  by_cases hp : orient2d p0 p1 p2 > 0
  · rw [if_pos hp]
    simp only [Bool.and_eq_true, decide_eq_true_eq]
    constructor
    · rintro ⟨⟨h0, h1⟩, h2⟩
      have hne := ne_of_gt hp
      refine ⟨_, _, _, div_nonneg h0 hp.le, div_nonneg h1 hp.le, div_nonneg h2 hp.le, ?_, ?_, ?_⟩
      · rw [← add_div, ← add_div, b0, div_self hne]
      · field_simp; linear_combination - b1
      · field_simp; linear_combination - b2
    · rintro ⟨u, v, w, hu, hv, hw, hs, h0, h1⟩
      obtain ⟨e0, e1, e2⟩ := bary2_of hs h0 h1
      rw [e0, e1, e2]
      exact ⟨⟨mul_nonneg hu hp.le, mul_nonneg hv hp.le⟩, mul_nonneg hw hp.le⟩
  · rw [if_neg hp]
    by_cases hn : orient2d p0 p1 p2 < 0
    · rw [if_pos hn]
      simp only [Bool.and_eq_true, decide_eq_true_eq]
      constructor
      · rintro ⟨⟨h0, h1⟩, h2⟩
        have hne := ne_of_lt hn
        refine ⟨_, _, _, div_nonneg_of_nonpos h0 hn.le, div_nonneg_of_nonpos h1 hn.le,
          div_nonneg_of_nonpos h2 hn.le, ?_, ?_, ?_⟩
        · rw [← add_div, ← add_div, b0, div_self hne]
        · field_simp; linear_combination - b1
        · field_simp; linear_combination - b2
      · rintro ⟨u, v, w, hu, hv, hw, hs, h0, h1⟩
        obtain ⟨e0, e1, e2⟩ := bary2_of hs h0 h1
        rw [e0, e1, e2]
        exact ⟨⟨mul_nonpos_of_nonneg_of_nonpos hu hn.le, mul_nonpos_of_nonneg_of_nonpos hv hn.le⟩,
          mul_nonpos_of_nonneg_of_nonpos hw hn.le⟩
    · rw [if_neg hn]
      have hz : orient2d p0 p1 p2 = 0 := le_antisymm (not_lt.1 hp) (not_lt.1 hn)
      simp only [Bool.or_eq_true, Bool.and_eq_true, decide_eq_true_eq, and_assoc]
      rw [segment2, segment2, segment2]
      change (OnSeg p0 p1 pt ∨ OnSeg p1 p2 pt) ∨ OnSeg p2 p0 pt ↔ _
      constructor
      · rintro ((⟨t, t0, t1, h0, h1⟩ | ⟨t, t0, t1, h0, h1⟩) | ⟨t, t0, t1, h0, h1⟩)
        · exact ⟨1 - t, t, 0, by linarith, t0, le_refl _, by ring, by rw [h0]; ring, by rw [h1]; ring⟩
        · exact ⟨0, 1 - t, t, le_refl _, by linarith, t0, by ring, by rw [h0]; ring, by rw [h1]; ring⟩
        · exact ⟨t, 0, 1 - t, t0, le_refl _, by linarith, by ring, by rw [h0]; ring, by rw [h1]; ring⟩
      · rintro ⟨u, v, w, hu, hv, hw, hs, h0, h1⟩
        rcases collinear_cases hz with h | h | h
        · exact Or.inl (Or.inl (onSeg_mix h hu hv hw hs h0 h1))
        · exact Or.inl (Or.inr (onSeg_mix h hv hw hu (by linear_combination hs)
            (by rw [h0]; ring) (by rw [h1]; ring)))
        · exact Or.inr (onSeg_mix h hw hu hv (by linear_combination hs)
            (by rw [h0]; ring) (by rw [h1]; ring))

theorem bary3 (p0 p1 p2 p3 pt : Vec K 3) :
    orient3d p1 p3 p2 pt + orient3d p0 p2 p3 pt + orient3d p0 p3 p1 pt + orient3d p0 p1 p2 pt =
      orient3d p0 p1 p2 p3 ∧
    ∀ i, orient3d p1 p3 p2 pt * p0 i + orient3d p0 p2 p3 pt * p1 i + orient3d p0 p3 p1 pt * p2 i +
      orient3d p0 p1 p2 pt * p3 i = orient3d p0 p1 p2 p3 * pt i := by
  unfold orient3d
  refine ⟨by ring, ?_⟩
  intro i
  fin_cases i <;> dsimp only [Fin.zero_eta, Fin.mk_one, Fin.reduceFinMk, Fin.isValue] <;> ring

theorem bary3_of {p0 p1 p2 p3 pt : Vec K 3} {s u v w : K} (hs : s + u + v + w = 1)
    (h0 : pt 0 = s * p0 0 + u * p1 0 + v * p2 0 + w * p3 0)
    (h1 : pt 1 = s * p0 1 + u * p1 1 + v * p2 1 + w * p3 1)
    (h2 : pt 2 = s * p0 2 + u * p1 2 + v * p2 2 + w * p3 2) :
    orient3d p1 p3 p2 pt = s * orient3d p0 p1 p2 p3 ∧ orient3d p0 p2 p3 pt = u * orient3d p0 p1 p2 p3 ∧
      orient3d p0 p3 p1 pt = v * orient3d p0 p1 p2 p3 ∧
      orient3d p0 p1 p2 pt = w * orient3d p0 p1 p2 p3 := by
  have hu : s = 1 - u - v - w := by linear_combination hs
  subst hu
  unfold orient3d
  rw [h0, h1, h2]
  refine ⟨by ring, by ring, by ring, by ring⟩

theorem insideTetra_iff {p0 p1 p2 p3 : Vec K 3} (pt : Vec K 3) (hr : orient3d p0 p1 p2 p3 ≠ 0) :
    ∃ b, insideTetra p0 p1 p2 p3 pt = .ok b ∧ (b = true ↔ InHull ![p0, p1, p2, p3] pt) := by
  rw [inHull4]
  unfold insideTetra
  dsimp only
  obtain ⟨b0, b1⟩ := bary3 p0 p1 p2 p3 pt
  by_cases hp : orient3d p0 p1 p2 p3 > 0
  · rw [if_pos hp]
    refine ⟨_, rfl, ?_⟩
    simp only [Bool.and_eq_true, decide_eq_true_eq]
    constructor
    · rintro ⟨⟨⟨h0, h1⟩, h2⟩, h3⟩
      refine ⟨_, _, _, _, div_nonneg h3 hp.le, div_nonneg h2 hp.le, div_nonneg h1 hp.le,
        div_nonneg h0 hp.le, ?_, ?_, ?_, ?_⟩
      · rw [← add_div, ← add_div, ← add_div, b0, div_self hr]
      · field_simp; linear_combination - b1 0
      · field_simp; linear_combination - b1 1
      · field_simp; linear_combination - b1 2
    · rintro ⟨s, u, v, w, hs0, hu, hv, hw, hs, h0, h1, h2⟩
      obtain ⟨e0, e1, e2, e3⟩ := bary3_of hs h0 h1 h2
      rw [e0, e1, e2, e3]
      exact ⟨⟨⟨mul_nonneg hw hp.le, mul_nonneg hv hp.le⟩, mul_nonneg hu hp.le⟩, mul_nonneg hs0 hp.le⟩
  · have hn : orient3d p0 p1 p2 p3 < 0 := lt_of_le_of_ne (not_lt.1 hp) hr
    rw [if_neg hp, if_pos hn]
    refine ⟨_, rfl, ?_⟩
    simp only [Bool.and_eq_true, decide_eq_true_eq]
    constructor
    · rintro ⟨⟨⟨h0, h1⟩, h2⟩, h3⟩
      refine ⟨_, _, _, _, div_nonneg_of_nonpos h3 hn.le, div_nonneg_of_nonpos h2 hn.le,
        div_nonneg_of_nonpos h1 hn.le, div_nonneg_of_nonpos h0 hn.le, ?_, ?_, ?_, ?_⟩
      · rw [← add_div, ← add_div, ← add_div, b0, div_self hr]
      · field_simp; linear_combination - b1 0
      · field_simp; linear_combination - b1 1
      · field_simp; linear_combination - b1 2
    · rintro ⟨s, u, v, w, hs0, hu, hv, hw, hs, h0, h1, h2⟩
      obtain ⟨e0, e1, e2, e3⟩ := bary3_of hs h0 h1 h2
      rw [e0, e1, e2, e3]
      exact ⟨⟨⟨mul_nonpos_of_nonneg_of_nonpos hw hn.le, mul_nonpos_of_nonneg_of_nonpos hv hn.le⟩,
        mul_nonpos_of_nonneg_of_nonpos hu hn.le⟩, mul_nonpos_of_nonneg_of_nonpos hs0 hn.le⟩

theorem dot_sum {d m : Nat} (n : Vec K d) (w : Fin m → K) (v : Fin m → Vec K d) :
    dot n (∑ i, w i • v i) = ∑ i, w i * dot n (v i) := by
  unfold dot
  simp only [Finset.sum_apply, Pi.smul_apply, smul_eq_mul, Finset.mul_sum]
  rw [Finset.sum_comm]
  refine Finset.sum_congr rfl (fun i _ => Finset.sum_congr rfl (fun j _ => by ring))

/-- A simplex given by vertices and normals: behind all facets = convex combination. -/
theorem hull_of_dual {g : Nat} (hg : 1 ≤ g) (v n : Fin (g + 1) → Vec K g)
    (plane : ∀ k i j, i ≠ k → j ≠ k → dot (n k) (v j - v i) = 0)
    (behind : ∀ k i, i ≠ k → dot (n k) (v k - v i) < 0) (p : Vec K g) :
    (∀ k i, i ≠ k → dot (n k) (p - v i) ≤ 0) ↔ InHull v p := by
  constructor
  · intro h
    have hind : LinearIndependent K (fun j : Fin g => v j.succ - v 0) := by
      rw [Fintype.linearIndependent_iff]
      intro c hc k
      have h1 : dot (n k.succ) (∑ j, c j • (v j.succ - v 0)) = 0 := by rw [hc, dot_zero]
      rw [dot_sum, Finset.sum_eq_single k] at h1
      · rcases mul_eq_zero.1 h1 with h | h
        · exact h
        · exact absurd h (ne_of_lt (behind k.succ 0 (Fin.succ_ne_zero k).symm))
      · intro j _ hj
        rw [plane k.succ 0 j.succ (Fin.succ_ne_zero k).symm (fun e => hj (Fin.succ_injective _ e)),
          mul_zero]
      · intro h; exact absurd (Finset.mem_univ _) h
    have hspan := hind.span_eq_top_of_card_eq_finrank' (by simp)
    have hm : p - v 0 ∈ Submodule.span K (Set.range (fun j : Fin g => v j.succ - v 0)) := by
      rw [hspan]; trivial
    obtain ⟨c, hc⟩ := (Submodule.mem_span_range_iff_exists_fun K).1 hm
    have hk : ∀ k : Fin g, dot (n k.succ) (p - v 0) = c k * dot (n k.succ) (v k.succ - v 0) := by
      intro k
      rw [← hc, dot_sum, Finset.sum_eq_single k]
      · intro j _ hj
        rw [plane k.succ 0 j.succ (Fin.succ_ne_zero k).symm (fun e => hj (Fin.succ_injective _ e)),
          mul_zero]
      · intro h; exact absurd (Finset.mem_univ _) h
    have hc0 : ∀ k, 0 ≤ c k := by
      intro k
      have h1 := h k.succ 0 (Fin.succ_ne_zero k).symm
      have h2 := behind k.succ 0 (Fin.succ_ne_zero k).symm
      rw [hk k] at h1
      by_contra hneg
      have := mul_pos_of_neg_of_neg (not_le.1 hneg) h2
      linarith
    have h0 : dot (n 0) (p - v 0) = (∑ j, c j) * dot (n 0) (v (Fin.succ ⟨0, hg⟩) - v 0) := by
      rw [← hc, dot_sum, Finset.sum_mul]
      refine Finset.sum_congr rfl (fun j _ => ?_)
      congr 1
      have := plane 0 (Fin.succ ⟨0, hg⟩) j.succ (Fin.succ_ne_zero _) (Fin.succ_ne_zero _)
      have e : v j.succ - v 0 = (v j.succ - v (Fin.succ ⟨0, hg⟩)) + (v (Fin.succ ⟨0, hg⟩) - v 0) := by
        abel
      rw [e, dot_add, this, zero_add]
    have hle : ∑ j, c j ≤ 1 := by
      have h1 := h 0 (Fin.succ ⟨0, hg⟩) (Fin.succ_ne_zero _)
      have h2 := behind 0 (Fin.succ ⟨0, hg⟩) (Fin.succ_ne_zero _)
      have e : p - v (Fin.succ ⟨0, hg⟩) = (p - v 0) - (v (Fin.succ ⟨0, hg⟩) - v 0) := by abel
      rw [e, dot_sub, h0] at h1
      have e2 : dot (n 0) (v (Fin.succ ⟨0, hg⟩) - v 0) = - dot (n 0) (v 0 - v (Fin.succ ⟨0, hg⟩)) := by
        rw [dot_sub, dot_sub]; ring
      rw [e2] at h1
      by_contra hgt
      have hgt := not_le.1 hgt
      nlinarith
    refine ⟨Fin.cons (1 - ∑ j, c j) c, ?_, ?_, ?_⟩
    · intro i
      refine Fin.cases ?_ (fun j => ?_) i
      · simpa using hle
      · simpa using hc0 j
    · rw [Fin.sum_univ_succ]; simp
    · intro i
      rw [Fin.sum_univ_succ]
      simp only [Fin.cons_zero, Fin.cons_succ]
      have := congrFun hc i
      simp only [Finset.sum_apply, Pi.smul_apply, Pi.sub_apply, smul_eq_mul] at this
      have e : ∑ j, c j * (v j.succ i - v 0 i) = ∑ j, c j * v j.succ i - (∑ j, c j) * v 0 i := by
        rw [Finset.sum_mul, ← Finset.sum_sub_distrib]
        refine Finset.sum_congr rfl (fun j _ => by ring)
      rw [e] at this
      linear_combination - this
  · rintro ⟨w, hw, hs, hp⟩ k i hi
    have e : p - v i = ∑ j, w j • (v j - v i) := by
      funext x
      simp only [Finset.sum_apply, Pi.smul_apply, Pi.sub_apply, smul_eq_mul]
      have e : ∑ j, w j * (v j x - v i x) = ∑ j, w j * v j x - (∑ j, w j) * v i x := by
        rw [Finset.sum_mul, ← Finset.sum_sub_distrib]
        refine Finset.sum_congr rfl (fun j _ => by ring)
      rw [e, hs, hp x, one_mul]
    rw [e, dot_sum]
    refine Finset.sum_nonpos (fun j _ => ?_)
    by_cases hj : j = k
    · subst hj
      exact mul_nonpos_of_nonneg_of_nonpos (hw j) (behind j i hi).le
    · rw [plane k i j hi hj, mul_zero]

/-- The vertices of a cell. -/
def Cell.vert {g : Nat} (c : Cell K g) (h : c.verts.length = g + 1) : Fin (g + 1) → Vec K g :=
  fun i => c.verts[i.1]'(by rw [h]; exact i.2)

theorem Cell.Regular.has_iff_hull {g : Nat} {c : Cell K g} (h : c.Regular) (p : Vec K g) :
    c.Has p ↔ InHull (c.vert h.verts) p := by
  have hlen := h.verts
  have hnlen := h.normals
  -- facet opposite to vertex k
  let opp : Fin (g + 1) → Fin (g + 1) := fun k => if g = 1 then Fin.rev k else k
  have hon : ∀ k i : Fin (g + 1), onFacet g (opp k).1 i.1 ↔ i ≠ k := by
    intro k i
    unfold onFacet
    by_cases hg : g = 1
    · subst hg
      simp only [opp, if_true]
      revert i k; decide
    · simp only [opp, if_neg hg, ne_eq, Fin.ext_iff]
  let n : Fin (g + 1) → Vec K g := fun k => c.normals[(opp k).1]'(by rw [hnlen]; exact (opp k).2)
  have hn : ∀ k, c.normals[(opp k).1]? = some (n k) := fun k =>
    List.getElem?_eq_getElem _
  have hv : ∀ k : Fin (g + 1), c.verts[k.1]? = some (c.vert hlen k) := fun k =>
    List.getElem?_eq_getElem _
  rw [← hull_of_dual h.dim.1 (c.vert hlen) n]
  · constructor
    · intro hh k i hi
      exact hh (opp k).1 (by have := (opp k).2; omega) (n k) _ i.1 (hn k) (hv i) ((hon k i).2 hi)
    · intro hh k hk n' v' j hn' hv' hj
      have hj' : j < g + 1 := by
        have := (List.getElem?_eq_some_iff.1 hv').1; omega
      obtain ⟨k', hk'⟩ : ∃ k', (opp k').1 = k := by
        refine ⟨opp ⟨k, by omega⟩, ?_⟩
        by_cases hg : g = 1
        · simp only [opp, if_pos hg, Fin.rev_rev]
        · simp only [opp, if_neg hg]
      have h1 := hh k' ⟨j, hj'⟩ ((hon k' ⟨j, hj'⟩).1 (by rw [hk']; exact hj))
      have e1 : n k' = n' := by
        have := hn k'; rw [hk', hn'] at this; exact (Option.some.inj this).symm
      have e2 : c.vert hlen ⟨j, hj'⟩ = v' := by
        have := hv ⟨j, hj'⟩; rw [hv'] at this; exact (Option.some.inj this).symm
      rw [e1, e2] at h1; exact h1
  · intro k i j hi hj
    exact h.plane _ _ _ _ _ _ (hn k) (hv i) (hv j) ((hon k i).2 hi) ((hon k j).2 hj)
  · intro k i hi
    exact h.behind _ _ _ _ _ _ (hn k) (hv i) (hv k) ((hon k i).2 hi) (fun hh => (hon k k).1 hh rfl)

end Dt
