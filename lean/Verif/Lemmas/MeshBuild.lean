import Verif.Lemmas.Hull
import Verif.Spec.MeshBuild
import Mathlib.Data.Fintype.Order

/-!
# Two simplices with a common facet
-/

set_option linter.unusedSectionVars false

namespace Dt
open Spec
variable {K : Type} [Field K] [LinearOrder K] [IsStrictOrderedRing K] {g : Nat}

theorem dotl_sub (u v w : Vec K g) : dot (u - v) w = dot u w - dot v w := by
  rw [dot_comm, dot_sub, dot_comm w u, dot_comm w v]

theorem dotl_smul (t : K) (u w : Vec K g) : dot (t • u) w = t * dot u w := by
  rw [dot_comm, dot_smul, dot_comm]

/-- Finitely many strict inequalities survive a small change. -/
theorem small_enough {m : Nat} (α β : Fin m → K) (h : ∀ j, α j < 0) :
    ∃ ε : K, 0 < ε ∧ ∀ δ, 0 ≤ δ → δ ≤ ε → ∀ j, α j + δ * β j < 0 := by
  induction m with
  | zero => exact ⟨1, one_pos, fun _ _ _ j => j.elim0⟩
  | succ m ih =>
    obtain ⟨ε, h0, h1⟩ := ih (fun j => α j.succ) (fun j => β j.succ) (fun j => h j.succ)
    have hb : (0 : K) < |β 0| + 1 := by have := abs_nonneg (β 0); linarith
    have ha : 0 < -α 0 / (|β 0| + 1) := div_pos (by have := h 0; linarith) hb
    refine ⟨min ε (-α 0 / (|β 0| + 1)), lt_min h0 ha, fun δ d0 d1 j => ?_⟩
    refine Fin.cases ?_ (fun j => ?_) j
    · have h2 : δ ≤ -α 0 / (|β 0| + 1) := d1.trans (min_le_right _ _)
      rw [le_div_iff₀ hb] at h2
      have h3 : δ * β 0 ≤ δ * |β 0| := mul_le_mul_of_nonneg_left (le_abs_self _) d0
      rcases d0.lt_or_eq with d0 | d0
      · nlinarith
      · rw [← d0]; have := h 0; linarith
    · exact h1 δ d0 (d1.trans (min_le_left _ _)) j

section
variable (v n : Fin (g + 1) → Vec K g)

/-- The normals belong to the facets opposite to the vertices. -/
structure Dual : Prop where
  plane : ∀ k i j, i ≠ k → j ≠ k → dot (n k) (v j - v i) = 0
  behind : ∀ k i, i ≠ k → dot (n k) (v k - v i) < 0

variable {v n}

theorem dot_combo {w : Fin (g + 1) → K} (hs : ∑ i, w i = 1) {p : Vec K g} (hp : ∀ c, p c = ∑ i, w i * v i c)
    (m a : Vec K g) : dot m (p - a) = ∑ i, w i * dot m (v i - a) := by
  have e : p - a = ∑ j, w j • (v j - a) := by
    funext x
    simp only [Finset.sum_apply, Pi.smul_apply, Pi.sub_apply, smul_eq_mul]
    have e : ∑ j, w j * (v j x - a x) = ∑ j, w j * v j x - (∑ j, w j) * a x := by
      rw [Finset.sum_mul, ← Finset.sum_sub_distrib]
      refine Finset.sum_congr rfl (fun j _ => by ring)
    rw [e, hs, hp x, one_mul]
  rw [e, dot_sum]

theorem Dual.coef (h : Dual v n) {w : Fin (g + 1) → K} (hs : ∑ i, w i = 1) {p : Vec K g}
    (hp : ∀ c, p c = ∑ i, w i * v i c) {k i : Fin (g + 1)} (hi : i ≠ k) :
    dot (n k) (p - v i) = w k * dot (n k) (v k - v i) := by
  rw [dot_combo hs hp, Finset.sum_eq_single k]
  · intro j _ hj
    rw [h.plane k i j hi hj, mul_zero]
  · intro h; exact absurd (Finset.mem_univ _) h

theorem exists_ne (hg : 1 ≤ g) (k : Fin (g + 1)) : ∃ i, i ≠ k := by
  by_cases h : k = 0
  · subst h
    exact ⟨⟨1, by omega⟩, by intro e; simp [Fin.ext_iff] at e⟩
  · exact ⟨0, fun e => h e.symm⟩

/-- Strictly behind all facets = interior. -/
theorem Dual.interior (hg : 1 ≤ g) (h : Dual v n) {p : Vec K g} (hp : ∀ k i, i ≠ k → dot (n k) (p - v i) < 0) :
    InInterior v p := by
  obtain ⟨w, hw, hs, e⟩ := (hull_of_dual hg v n h.plane h.behind p).1 (fun k i hi => (hp k i hi).le)
  refine ⟨w, fun k => ?_, hs, e⟩
  obtain ⟨i, hi⟩ := exists_ne hg k
  have h1 := hp k i hi
  rw [h.coef hs e hi] at h1
  rcases (hw k).lt_or_eq with h2 | h2
  · exact h2
  · rw [← h2, zero_mul] at h1; exact absurd h1 (lt_irrefl _)

/-- A vector perpendicular to all the edges at a vertex is zero. -/
theorem Dual.perp_zero (h : Dual v n) {m : Vec K g} (i : Fin (g + 1)) (hm : ∀ j, dot m (v j - v i) = 0) : m = 0 := by
  have hm0 : ∀ j : Fin g, dot m (v j.succ - v 0) = 0 := by
    intro j
    have e : v j.succ - v 0 = (v j.succ - v i) - (v 0 - v i) := by abel
    rw [e, dot_sub, hm, hm, sub_zero]
  have hind : LinearIndependent K (fun j : Fin g => v j.succ - v 0) := by
    rw [Fintype.linearIndependent_iff]
    intro c hc k
    have h1 : dot (n k.succ) (∑ j, c j • (v j.succ - v 0)) = 0 := by rw [hc, dot_zero]
    rw [dot_sum, Finset.sum_eq_single k] at h1
    · rcases mul_eq_zero.1 h1 with h' | h'
      · exact h'
      · exact absurd h' (ne_of_lt (h.behind k.succ 0 (Fin.succ_ne_zero k).symm))
    · intro j _ hj
      rw [h.plane k.succ 0 j.succ (Fin.succ_ne_zero k).symm (fun e => hj (Fin.succ_injective _ e)), mul_zero]
    · intro h; exact absurd (Finset.mem_univ _) h
  have hspan := hind.span_eq_top_of_card_eq_finrank' (by simp)
  have hmm : m ∈ Submodule.span K (Set.range (fun j : Fin g => v j.succ - v 0)) := by rw [hspan]; trivial
  obtain ⟨c, hc⟩ := (Submodule.mem_span_range_iff_exists_fun K).1 hmm
  have hz : dot m m = 0 := by
    conv_lhs => rw [← hc]
    rw [hc, ← hc, dot_sum]
    refine Finset.sum_eq_zero fun j _ => ?_
    rw [hc, hm0, mul_zero]
  unfold dot at hz
  rw [Finset.sum_eq_zero_iff_of_nonneg (fun i _ => mul_self_nonneg _)] at hz
  funext i
  exact mul_self_eq_zero.1 (hz i (Finset.mem_univ _))

variable {v' n' : Fin (g + 1) → Vec K g} {k k' : Fin (g + 1)}

/-- The points of a facet belong to every simplex with the vertices of the facet. -/
theorem Dual.shared (hg : 1 ≤ g) (h : Dual v n) (h' : Dual v' n') (hv : ∀ i, i ≠ k → ∃ j, j ≠ k' ∧ v' j = v i)
    {q : Vec K g} (hq : InHull v q) (hp : ∀ i, i ≠ k → dot (n k) (q - v i) = 0) : InHull v' q := by
  obtain ⟨w, hw, hs, e⟩ := hq
  obtain ⟨i0, hi0⟩ := exists_ne hg k
  have hk : w k = 0 := by
    have h1 := hp i0 hi0
    rw [h.coef hs e hi0] at h1
    rcases mul_eq_zero.1 h1 with h2 | h2
    · exact h2
    · exact absurd h2 (ne_of_lt (h.behind k i0 hi0))
  rw [← hull_of_dual hg v' n' h'.plane h'.behind]
  intro l i hi
  rw [dot_combo hs e]
  refine Finset.sum_nonpos fun j _ => ?_
  by_cases hj : j = k
  · rw [hj, hk, zero_mul]
  · obtain ⟨j', -, hj'⟩ := hv j hj
    rw [← hj']
    refine mul_nonpos_of_nonneg_of_nonpos (hw j) ?_
    by_cases hl : j' = l
    · rw [hl]; exact (h'.behind l i hi).le
    · rw [h'.plane l i j' hi hl]

/-- Simplices with a common facet and no common interior point are on different sides of it. -/
theorem Dual.opposite (hg : 1 ≤ g) (h : Dual v n) (h' : Dual v' n') (hv : ∀ i, i ≠ k → ∃ j, j ≠ k' ∧ v' j = v i)
    (hv' : ∀ j, j ≠ k' → ∃ i, i ≠ k ∧ v i = v' j) (hd : ∀ p, ¬ (InInterior v p ∧ InInterior v' p)) :
    ∃ a : K, 0 < a ∧ n' k' = -(a • n k) := by
  obtain ⟨i0, hi0⟩ := exists_ne hg k
  have hb := h.behind k i0 hi0
  obtain ⟨j0, hj0, e0⟩ := hv i0 hi0
  -- the normals are parallel
  obtain ⟨a, ha⟩ : ∃ a, a = dot (n' k') (v k - v i0) / dot (n k) (v k - v i0) := ⟨_, rfl⟩
  have hpar : n' k' = a • n k := by
    have hz : n' k' - a • n k = 0 := by
      refine h.perp_zero i0 fun j => ?_
      rw [dotl_sub, dotl_smul]
      by_cases hj : j = k
      · rw [hj, ha, div_mul_cancel₀ _ (ne_of_lt hb), sub_self]
      · obtain ⟨j', hj', e⟩ := hv j hj
        rw [h.plane k i0 j hi0 hj, ← e, ← e0, h'.plane k' j0 j' hj0 hj', mul_zero, sub_self]
    exact sub_eq_zero.1 hz
  have hne : a ≠ 0 := by
    intro h0
    have h1 := h'.behind k' j0 hj0
    rw [hpar, h0, zero_smul] at h1
    simp [dot] at h1
  rcases lt_or_gt_of_ne hne with hlt | hgt
  · exact ⟨-a, by linarith, by rw [hpar, neg_smul, neg_neg]⟩
  · exfalso
    have hg0 : (0 : K) < (g : K) := by exact_mod_cast hg
    -- the middle of the facet
    obtain ⟨w, hwdef⟩ : ∃ w : Fin (g + 1) → K, w = fun i => if i = k then 0 else 1 / (g : K) := ⟨_, rfl⟩
    have hws : ∑ i, w i = 1 := by
      rw [hwdef, Finset.sum_ite]
      simp only [Finset.sum_const_zero, zero_add, Finset.sum_const, nsmul_eq_mul]
      have : (Finset.univ.filter (fun i : Fin (g + 1) => ¬ i = k)).card = g := by
        rw [Finset.filter_not, Finset.filter_eq' Finset.univ k, if_pos (Finset.mem_univ _),
          Finset.card_sdiff_of_subset (Finset.subset_univ _)]
        simp
      rw [this]
      field_simp
    have hw0 : ∀ i, 0 ≤ w i := by
      intro i
      rw [hwdef]
      dsimp only
      split
      · exact le_refl _
      · exact (div_pos one_pos hg0).le
    have hw1 : ∀ i, i ≠ k → 0 < w i := by
      intro i hi
      rw [hwdef]
      dsimp only
      rw [if_neg hi]
      exact div_pos one_pos hg0
    obtain ⟨b, hbdef⟩ : ∃ b : Vec K g, ∀ c, b c = ∑ i, w i * v i c := ⟨fun c => ∑ i, w i * v i c, fun c => rfl⟩
    have hbk : ∀ i, i ≠ k → dot (n k) (b - v i) = 0 := by
      intro i hi
      rw [h.coef hws hbdef hi, hwdef]
      simp
    have hbj : ∀ l i, l ≠ k → i ≠ l → dot (n l) (b - v i) < 0 := by
      intro l i hl hi
      rw [h.coef hws hbdef hi]
      exact mul_neg_of_pos_of_neg (hw1 l hl) (h.behind l i hi)
    have hbj' : ∀ l i, l ≠ k' → i ≠ l → dot (n' l) (b - v' i) < 0 := by
      intro l i hl hi
      rw [dot_combo hws hbdef]
      obtain ⟨m, hm, em⟩ := hv' l hl
      refine Finset.sum_neg' (fun j _ => ?_) ⟨m, Finset.mem_univ _, ?_⟩
      · by_cases hj : j = k
        · rw [hj, hwdef]; simp
        · obtain ⟨j', -, ej⟩ := hv j hj
          rw [← ej]
          refine mul_nonpos_of_nonneg_of_nonpos (hw0 j) ?_
          by_cases hl : j' = l
          · rw [hl]; exact (h'.behind l i hi).le
          · rw [h'.plane l i j' hi hl]
      · rw [em]
        exact mul_neg_of_pos_of_neg (hw1 m hm) (h'.behind l i hi)
    have hbk' : ∀ i, i ≠ k' → dot (n' k') (b - v' i) = 0 := by
      intro i hi
      obtain ⟨m, hm, em⟩ := hv' i hi
      rw [← em, hpar, dotl_smul, hbk m hm, mul_zero]
    have hnn : 0 < dot (n k) (n k) := by
      rcases (show 0 ≤ dot (n k) (n k) from Finset.sum_nonneg fun i _ => mul_self_nonneg _).lt_or_eq with h1 | h1
      · exact h1
      · exfalso
        have hz : n k = 0 := by
          have h2 := h1.symm
          unfold dot at h2
          rw [Finset.sum_eq_zero_iff_of_nonneg (fun i _ => mul_self_nonneg _)] at h2
          funext i
          exact mul_self_eq_zero.1 (h2 i (Finset.mem_univ _))
        rw [hz] at hb
        simp [dot] at hb
    -- a point a little behind the facet
    choose o ho using exists_ne hg
    obtain ⟨ε, p1, p2⟩ := small_enough (fun l => if l = k then -1 else dot (n l) (b - v (o l)))
      (fun l => if l = k then 0 else - dot (n l) (n k)) (by
        intro l
        split
        · norm_num
        · rename_i hl; exact hbj l _ hl (ho l))
    obtain ⟨ε', p1', p2'⟩ := small_enough (fun l => if l = k' then -1 else dot (n' l) (b - v' (o l)))
      (fun l => if l = k' then 0 else - dot (n' l) (n k)) (by
        intro l
        split
        · norm_num
        · rename_i hl; exact hbj' l _ hl (ho l))
    obtain ⟨δ, hδ⟩ : ∃ δ, δ = min ε ε' := ⟨_, rfl⟩
    have d0 : 0 < δ := hδ ▸ lt_min p1 p1'
    have move : ∀ (m c : Vec K g), dot m (b - δ • n k - c) = dot m (b - c) + δ * -dot m (n k) := by
      intro m c
      have : b - δ • n k - c = (b - c) - δ • n k := by abel
      rw [this, dot_sub, dot_smul]
      ring
    refine hd (b - δ • n k) ⟨h.interior hg fun l i hi => ?_, h'.interior hg fun l i hi => ?_⟩
    · have hsame : dot (n l) (b - δ • n k - v i) = dot (n l) (b - δ • n k - v (o l)) := by
        have e : b - δ • n k - v i = (b - δ • n k - v (o l)) - (v i - v (o l)) := by abel
        rw [e, dot_sub, h.plane l (o l) i (ho l) hi, sub_zero]
      rw [hsame, move]
      by_cases hl : l = k
      · have : o l ≠ k := by rw [← hl]; exact ho l
        rw [hl, ← hl, hl, hbk _ (hl ▸ this)]
        nlinarith
      · have := p2 δ d0.le (hδ ▸ min_le_left _ _) l
        simp only [if_neg hl] at this
        exact this
    · have hsame : dot (n' l) (b - δ • n k - v' i) = dot (n' l) (b - δ • n k - v' (o l)) := by
        have e : b - δ • n k - v' i = (b - δ • n k - v' (o l)) - (v' i - v' (o l)) := by abel
        rw [e, dot_sub, h'.plane l (o l) i (ho l) hi, sub_zero]
      rw [hsame, move]
      by_cases hl : l = k'
      · have h1 : o l ≠ k' := by rw [← hl]; exact ho l
        subst hl
        rw [hbk' _ h1, hpar, dotl_smul]
        have := mul_pos hgt hnn
        nlinarith
      · have := p2' δ d0.le (hδ ▸ min_le_right _ _) l
        simp only [if_neg hl] at this
        exact this

end
end Dt
