import Verif.Lemmas.Cross
import Mathlib.Data.Fintype.Lattice
import Mathlib.Order.Preorder.Finite
import Mathlib.Tactic.FinCases
import Mathlib.Tactic.LinearCombination

/-!
# Lines through a triangulation of a part of the plane

The cells are disjoint and convex, so in any direction they can be put in an order.
-/

set_option linter.unusedSectionVars false

namespace Dt
open Dt.Topology Spec
variable {K : Type} [Field K] [LinearOrder K] [IsStrictOrderedRing K] {g : Nat}

theorem interior_segment {n : Nat} {v : Fin n → Vec K g} {p q : Vec K g} (hp : InInterior v p) (hq : InHull v q) {t : K} (h0 : 0 ≤ t)
    (h1 : t < 1) : InInterior v (p + t • (q - p)) := by
  obtain ⟨w, a, b, c⟩ := hp
  obtain ⟨w', a', b', c'⟩ := hq
  refine ⟨fun i => (1 - t) * w i + t * w' i, fun i => ?_, ?_, fun m => ?_⟩
  · have := mul_pos (sub_pos.2 h1) (a i)
    have := mul_nonneg h0 (a' i)
    linarith
  · rw [Finset.sum_add_distrib, ← Finset.mul_sum, ← Finset.mul_sum, b, b']
    ring
  · simp only [Pi.add_apply, Pi.smul_apply, Pi.sub_apply, smul_eq_mul]
    rw [c m, c' m]
    simp only [add_mul, Finset.sum_add_distrib, mul_assoc, ← Finset.mul_sum]
    ring

theorem interior_hull {n : Nat} {v : Fin n → Vec K g} {p : Vec K g} (hp : InInterior v p) : InHull v p := by
  obtain ⟨w, a, b, c⟩ := hp
  exact ⟨w, fun i => (a i).le, b, c⟩

theorem corner_hull {n : Nat} (v : Fin n → Vec K g) (m : Fin n) : InHull v (v m) := by
  refine ⟨fun i => if i = m then 1 else 0, fun i => ?_, by simp, fun c => by simp⟩
  dsimp only
  split
  · exact zero_le_one
  · exact le_rfl

/-- Two cells cannot be in front of each other. -/
theorem before_antisymm {hg : g ≤ 3} {D : DMesh K g} (hT : Triangulation hg D) {d : Vec K g} {c c' : DSimplex K} (hc : c ∈ D.cells)
    (hc' : c' ∈ D.cells) (h : Before D d c c') (h' : Before D d c' c) : False := by
  obtain ⟨hne, p, s, hs, h1, h2⟩ := h
  obtain ⟨-, q, t, ht, h3, h4⟩ := h'
  have hst : 0 < s + t := by linarith
  have l0 : 0 ≤ s / (s + t) := (div_pos hs hst).le
  have l1 : s / (s + t) < 1 := (div_lt_one hst).2 (by linarith)
  refine hT.disjoint c hc c' hc' hne _ ⟨interior_segment h1 (interior_hull h4) l0 l1, ?_⟩
  have e : p + (s / (s + t)) • (q + t • d - p) = p + s • d + (s / (s + t)) • (q - (p + s • d)) := by
    funext i
    simp only [Pi.add_apply, Pi.smul_apply, Pi.sub_apply, smul_eq_mul]
    field_simp
    ring
  rw [e]
  exact interior_segment h2 (interior_hull h3) l0 l1

section
variable {hg : 2 ≤ 3} {D : DMesh K 2} {d : Vec K 2}

/-- The coordinate across the direction `d`. -/
def across (d p : Vec K 2) : K := p 0 * d 1 - p 1 * d 0

theorem across_add (p : Vec K 2) (s : K) : across d (p + s • d) = across d p := by
  simp only [across, Pi.add_apply, Pi.smul_apply, smul_eq_mul]
  ring

theorem dot2' (a b : Vec K 2) : dot a b = a 0 * b 0 + a 1 * b 1 := by
  simp [dot, Fin.sum_univ_two]

theorem across_line (hd : d ≠ 0) {p q : Vec K 2} (h : across d p = across d q) : ∃ s : K, q = p + s • d := by
  have hdd : dot d d ≠ 0 := by
    intro h0
    rw [dot2'] at h0
    apply hd
    have a : d 0 = 0 := by nlinarith [mul_self_nonneg (d 0), mul_self_nonneg (d 1)]
    have b : d 1 = 0 := by nlinarith [mul_self_nonneg (d 0), mul_self_nonneg (d 1)]
    funext i
    fin_cases i
    · exact a
    · exact b
  refine ⟨dot (q - p) d / dot d d, ?_⟩
  unfold across at h
  funext i
  simp only [Pi.add_apply, Pi.smul_apply, smul_eq_mul]
  field_simp
  rw [dot2', dot2']
  simp only [Pi.sub_apply]
  fin_cases i
  · simp only [Fin.zero_eta]
    linear_combination -d 1 * h
  · simp only [Fin.mk_one]
    linear_combination d 0 * h

theorem across_segment (p q : Vec K 2) (t : K) : across d (p + t • (q - p)) = across d p + t * (across d q - across d p) := by
  simp only [across, Pi.add_apply, Pi.smul_apply, Pi.sub_apply, smul_eq_mul]
  ring

/-- The corner that is farthest across. -/
theorem far_corner (d : Vec K 2) (c : DSimplex K) : ∃ m, ∀ i, across d (corner D c i) ≤ across d (corner D c m) :=
  Finite.exists_max (fun i => across d (corner D c i))

theorem across_lt (hT : Triangulation hg D) (hd : d ≠ 0) {c : DSimplex K} (hc : c ∈ D.cells) {m : Fin 3}
    (hm : ∀ i, across d (corner D c i) ≤ across d (corner D c m)) {p : Vec K 2} (hp : InInterior (corner D c) p) :
    across d p < across d (corner D c m) := by
  obtain ⟨w, a, b, e⟩ := hp
  have e1 : across d p = ∑ i, w i * across d (corner D c i) := by
    simp only [across, e, mul_sub, Finset.sum_sub_distrib, Finset.sum_mul, mul_assoc]
  have e2 : across d (corner D c m) = ∑ i, w i * across d (corner D c m) := by rw [← Finset.sum_mul, b, one_mul]
  rw [e1, e2]
  refine Finset.sum_lt_sum (fun i _ => mul_le_mul_of_nonneg_left (hm i) (a i).le) ?_
  by_contra hno
  push Not at hno
  have hz : (![d 1, -d 0] : Vec K 2) = 0 := by
    refine (dual_of hT hc).perp_zero m fun j => ?_
    have := hno j (Finset.mem_univ _)
    have h3 : across d (corner D c j) = across d (corner D c m) := le_antisymm (hm j) (le_of_mul_le_mul_left this (a j))
    rw [dot2']
    simp only [across] at h3
    simp only [Matrix.cons_val_zero, Matrix.cons_val_one, Pi.sub_apply]
    linear_combination h3
  apply hd
  funext i
  have z0 := congrFun hz 0
  have z1 := congrFun hz 1
  simp only [Matrix.cons_val_zero, Matrix.cons_val_one, Pi.zero_apply, neg_eq_zero] at z0 z1
  fin_cases i
  · exact z1
  · exact z0

theorem across_find {c : DSimplex K} {m : Fin 3} {p : Vec K 2} (hp : InInterior (corner D c) p) {t : K} (h0 : across d p ≤ t)
    (h1 : t < across d (corner D c m)) : ∃ q, InInterior (corner D c) q ∧ across d q = t := by
  have hpos : 0 < across d (corner D c m) - across d p := by linarith
  refine ⟨_, interior_segment hp (corner_hull _ m) (t := (t - across d p) / (across d (corner D c m) - across d p))
    (div_nonneg (by linarith) hpos.le) ((div_lt_one hpos).2 (by linarith)), ?_⟩
  rw [across_segment]
  field_simp
  ring

/-- Points of two cells one of which is before the other are in the same order on every line. -/
theorem before_line (hT : Triangulation hg D) (hd : d ≠ 0) {c c' : DSimplex K} (hc : c ∈ D.cells) (hc' : c' ∈ D.cells)
    (h : Before D d c c') {p q : Vec K 2} (hp : InInterior (corner D c) p) (hq : InInterior (corner D c') q)
    (e : across d p = across d q) : ∃ s : K, 0 < s ∧ q = p + s • d := by
  obtain ⟨s, rfl⟩ := across_line hd e
  rcases lt_trichotomy s 0 with hs | rfl | hs
  · exfalso
    refine before_antisymm hT hc hc' h ⟨fun h0 => h.1 h0.symm, p + s • d, -s, by linarith, hq, ?_⟩
    rw [neg_smul, add_neg_cancel_right]
    exact hp
  · exfalso
    rw [zero_smul, add_zero] at hq
    exact hT.disjoint c hc c' hc' h.1 p ⟨hp, hq⟩
  · exact ⟨s, hs, rfl⟩

/-- In the plane the cells can be put in an order in any direction. -/
theorem plane_rank (hT : Triangulation hg D) (d : Vec K 2) :
    ∃ f : DSimplex K → ℚ, ∀ c ∈ D.cells, ∀ c' ∈ D.cells, Ahead hg d c c' → f c < f c' := by
  classical
  by_cases hd : d = 0
  · subst hd
    refine ⟨fun _ => 0, fun c _ c' _ h => ?_⟩
    obtain ⟨-, k, F, -, -, hpos⟩ := h
    rw [dot_zero] at hpos
    exact absurd hpos (lt_irrefl _)
  choose m hm using fun c : DSimplex K => far_corner (D := D) d c
  have hk := hT.manifold.nodup
  rw [topo_keys] at hk
  have uniq : ∀ c ∈ D.cells, ∀ c' ∈ D.cells, c.index = c'.index → c = c' := fun c hc c' hc' he =>
    List.inj_on_of_nodup_map hk hc hc' he
  obtain ⟨f, hf⟩ := exists_rank D.cells.toFinset (Before D d) (fun c => across d (corner D c (m c))) (fun a h => h.1 rfl) (by
    intro a b c ha hb hc hab hbc h1 h2
    rw [List.mem_toFinset] at ha hb hc
    have hac : a.index ≠ c.index := by
      intro h0
      obtain rfl := uniq a ha c hc h0
      exact before_antisymm hT ha hb hab hbc
    refine ⟨hac, ?_⟩
    obtain ⟨-, p, s, hs, i1, i2⟩ := id hab
    obtain ⟨-, q, t, ht, i3, i4⟩ := id hbc
    rcases le_total (across d p) (across d q) with hle | hle
    · obtain ⟨p', hp', e⟩ := across_find (m := m a) i1 hle ((across_lt hT hd hb (hm b) i3).trans_le h1)
      obtain ⟨s', hs', rfl⟩ := before_line hT hd ha hb hab hp' i3 e
      refine ⟨p', s' + t, by linarith, hp', ?_⟩
      rw [add_smul, ← add_assoc]
      exact i4
    · have e0 : across d (q + t • d) ≤ across d (p + s • d) := by rw [across_add, across_add]; exact hle
      obtain ⟨q', hq', e⟩ := across_find (m := m c) i4 e0 ((across_lt hT hd hb (hm b) i2).trans_le h2)
      obtain ⟨t', ht', rfl⟩ := before_line hT hd hb hc hbc i2 hq' e.symm
      refine ⟨p, s + t', by linarith, i1, ?_⟩
      rw [add_smul, ← add_assoc]
      exact hq')
  refine ⟨f, fun c hc c' hc' h => hf c (List.mem_toFinset.2 hc) c' (List.mem_toFinset.2 hc') (before_of_ahead hT hc hc' h)⟩

end

/-- On a line. -/
theorem line_rank {hg : 1 ≤ 3} {D : DMesh K 1} (hT : Triangulation hg D) (d : Vec K 1) :
    ∃ f : DSimplex K → K, ∀ c ∈ D.cells, ∀ c' ∈ D.cells, Ahead hg d c c' → f c < f c' := by
  refine ⟨fun c => d 0 * (corner D c 0 0 + corner D c 1 0), fun c hc c' hc' h => ?_⟩
  have hA := h
  obtain ⟨hne, p, s, hs, h1, h2⟩ := before_of_ahead hT hc hc' h
  have hd0 : d 0 ≠ 0 := by
    intro h0
    obtain ⟨-, k, F, -, -, hpos⟩ := hA
    have : d = 0 := by funext i; fin_cases i; exact h0
    rw [this, dot_zero] at hpos
    exact lt_irrefl _ hpos
  -- all points of one are on one side of all points of the other
  have order : ∀ a b : Vec K 1, InInterior (corner D c) a → InInterior (corner D c') b → d 0 * a 0 < d 0 * b 0 := by
    intro a b ha hb
    have hab : b = a + ((b 0 - a 0) / d 0) • d := by
      funext i; fin_cases i
      simp only [Fin.zero_eta, Pi.add_apply, Pi.smul_apply, smul_eq_mul]
      field_simp
      ring
    have hdd := mul_self_pos.2 hd0
    rcases lt_trichotomy ((b 0 - a 0) / d 0) 0 with hlt | h0 | hlt
    · exfalso
      refine before_antisymm hT hc hc' ⟨hne, p, s, hs, h1, h2⟩ ⟨fun h0 => hne h0.symm, b, -((b 0 - a 0) / d 0), by linarith, hb, ?_⟩
      have : b + -((b 0 - a 0) / d 0) • d = a := by
        conv_lhs => rw [hab]
        funext i; fin_cases i
        simp only [Fin.zero_eta, Pi.add_apply, Pi.smul_apply, smul_eq_mul]
        field_simp
        ring
      rw [this]
      exact ha
    · exfalso
      rw [h0, zero_smul, add_zero] at hab
      subst hab
      exact hT.disjoint c hc c' hc' hne _ ⟨ha, hb⟩
    · have := mul_pos hlt hdd
      have e : (b 0 - a 0) / d 0 * (d 0 * d 0) = d 0 * b 0 - d 0 * a 0 := by field_simp
      linarith
  have mid : ∀ c : DSimplex K, InInterior (corner D c) (fun i => (corner D c 0 i + corner D c 1 i) / 2) := by
    intro c
    refine ⟨fun _ => 1 / 2, fun _ => by norm_num, by simp, fun i => ?_⟩
    rw [Fin.sum_univ_two]
    ring
  have := order _ _ (mid c) (mid c')
  dsimp only
  linarith

end Dt
