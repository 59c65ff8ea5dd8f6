import Verif.Lemmas.Box
import Verif.Spec.Plasma

/-!
# The mesh on a box: tetrahedra in space
-/

set_option linter.unusedSectionVars false

namespace Dt
namespace Box
open Dt.Topology Spec
variable {K : Type} [Field K] [LinearOrder K] [IsStrictOrderedRing K]
variable {sq : K → K} {x y z : Nat → K} {nx ny nz i j k i' j' k' : Nat} {t t' : Tet}

theorem dotB (a b : Vec K 3) : dot a b = a 0 * b 0 + a 1 * b 1 + a 2 * b 2 := by
  simp [dot, Fin.sum_univ_three]

/-! ### Normals -/

/-- Six times the volume, with a sign. -/
def det (p0 p1 p2 p3 : Vec K 3) : K := dot (cross (p2 - p1) (p3 - p1)) (p0 - p1)

section
variable (hsq : ∀ s, 0 < s → 0 < sq s)
include hsq

theorem tetNormal_perp2 (p0 p1 p2 p3 : Vec K 3) :
    dot (cutNormal (by decide : 3 ≤ 3) (tetNormal sq p0 p1 p2 p3)) (p2 - p1) = 0 := by
  rw [dotB]
  simp only [cutNormal, tetNormal, cross, Pi.sub_apply]
  simp
  ring

theorem tetNormal_perp3 (p0 p1 p2 p3 : Vec K 3) :
    dot (cutNormal (by decide : 3 ≤ 3) (tetNormal sq p0 p1 p2 p3)) (p3 - p1) = 0 := by
  rw [dotB]
  simp only [cutNormal, tetNormal, cross, Pi.sub_apply]
  simp
  ring

theorem tetNormal_out {p0 p1 p2 p3 : Vec K 3} (h : det p0 p1 p2 p3 ≠ 0) :
    dot (cutNormal (by decide : 3 ≤ 3) (tetNormal sq p0 p1 p2 p3)) (p0 - p1) < 0 := by
  unfold det at h
  set n := cross (p2 - p1) (p3 - p1) with hn
  have hnn : 0 < dot n n := by
    rw [dotB]
    by_contra hc
    have h0 : n 0 = 0 := by nlinarith [sq_nonneg (n 0), sq_nonneg (n 1), sq_nonneg (n 2)]
    have h1 : n 1 = 0 := by nlinarith [sq_nonneg (n 0), sq_nonneg (n 1), sq_nonneg (n 2)]
    have h2 : n 2 = 0 := by nlinarith [sq_nonneg (n 0), sq_nonneg (n 1), sq_nonneg (n 2)]
    apply h
    rw [dotB, h0, h1, h2]
    ring
  have hs := hsq _ hnn
  have e : dot (cutNormal (by decide : 3 ≤ 3) (tetNormal sq p0 p1 p2 p3)) (p0 - p1) =
      (if 0 < dot n (p0 - p1) then -1 else 1) * dot n (p0 - p1) / sq (dot n n) := by
    rw [dotB, dotB n (p0 - p1)]
    simp only [cutNormal, tetNormal, ← hn, Fin.castLE_rfl, id]
    rw [dotB n (p0 - p1)]
    ring
  rw [e]
  refine div_neg_of_neg_of_pos ?_ hs
  split
  · linarith
  · rename_i hc
    rw [one_mul]
    exact lt_of_le_of_ne (not_lt.1 hc) h

end

/-! ### Coordinates in a box -/

/-- Between neighbouring grid points the coordinate grows. -/
def Rising (x : Nat → K) (n : Nat) : Prop := ∀ i < n, x i < x (i + 1)

theorem Rising.le {n a b : Nat} (h : Rising x n) (hab : a ≤ b) (hb : b ≤ n) : x a ≤ x b := by
  induction b, hab using Nat.le_induction with
  | base => exact le_refl _
  | succ b _ ih => exact (ih (by omega)).trans (h b (by omega)).le

theorem Rising.box_eq {n a b : Nat} (h : Rising x n) (ha : a < n) (hb : b < n) {p : K}
    (h1 : x a < p) (h2 : p < x (a + 1)) (h3 : x b < p) (h4 : p < x (b + 1)) : a = b := by
  rcases lt_trichotomy a b with hlt | rfl | hlt
  · have := h.le (a := a + 1) (b := b) hlt hb.le
    linarith
  · rfl
  · have := h.le (a := b + 1) (b := a) hlt ha.le
    linarith

theorem Rising.find {n : Nat} (hn : 0 < n) {p : K} (h0 : x 0 ≤ p) (h1 : p ≤ x n) : ∃ i < n, x i ≤ p ∧ p ≤ x (i + 1) := by
  induction n with
  | zero => omega
  | succ n ih =>
    rcases Nat.eq_zero_or_pos n with rfl | hpos
    · exact ⟨0, by omega, h0, h1⟩
    · rcases le_total p (x n) with h | h
      · obtain ⟨i, hi, a, b⟩ := ih hpos h
        exact ⟨i, by omega, a, b⟩
      · exact ⟨n, by omega, h, h1⟩

/-- The coordinates in the order in which the tetrahedron goes through them. -/
def chain (t : Tet) (u : Vec K 3) : K × K × K :=
  match t with
  | .xyz => (u 0, u 1, u 2)
  | .xzy => (u 0, u 2, u 1)
  | .zxy => (u 2, u 0, u 1)
  | .yxz => (u 1, u 0, u 2)
  | .zyx => (u 2, u 1, u 0)
  | .yzx => (u 1, u 2, u 0)

/-- The point with the coordinates `u` in a box. -/
def place (x y z : Nat → K) (i j k : Nat) (u : Vec K 3) : Vec K 3 :=
  ![x i + (x (i + 1) - x i) * u 0, y j + (y (j + 1) - y j) * u 1, z k + (z (k + 1) - z k) * u 2]

/-- The coordinates of a weighted mean of corners. -/
def means (t : Tet) (w : Fin 4 → K) : Vec K 3 :=
  ![∑ m, w m * ((step t m).1 : K), ∑ m, w m * ((step t m).2.1 : K), ∑ m, w m * ((step t m).2.2 : K)]

theorem means_chain (t : Tet) (w : Fin 4 → K) : chain t (means t w) = (w 1 + w 2 + w 3, w 2 + w 3, w 3) := by
  cases t <;> simp [chain, means, step, Tet.steps, Fin.sum_univ_four]

theorem corner_mean (hi : i < nx) (hj : j < ny) {w : Fin 4 → K} (hw : ∑ m, w m = 1) (c : Fin 3) :
    ∑ m, w m * corner (dmesh sq x y z nx ny nz) (simplex sq x y z nx ny i j k t) m c = place x y z i j k (means t w) c := by
  have aux : ∀ (x : Nat → K) (i : Nat) (s : Fin 4 → Nat), (∀ m, s m ≤ 1) →
      ∑ m, w m * x (i + s m) = x i + (x (i + 1) - x i) * ∑ m, w m * (s m : K) := by
    intro x i s hs
    have : ∀ m, w m * x (i + s m) = x i * w m + (x (i + 1) - x i) * (w m * (s m : K)) := by
      intro m
      have := hs m
      interval_cases h : s m
      · simp; ring
      · push_cast; ring
    simp only [this]
    rw [Finset.sum_add_distrib, ← Finset.mul_sum, ← Finset.mul_sum, hw, mul_one]
  have hst : ∀ m : Fin 4, (step t m).1 ≤ 1 ∧ (step t m).2.1 ≤ 1 ∧ (step t m).2.2 ≤ 1 := by
    intro m
    obtain ⟨s, hs, h⟩ := step_get t m
    simp only [step, hs, Option.getD_some]
    exact h
  simp only [corner_simplex hi hj]
  fin_cases c
  · exact aux x i _ (fun m => (hst m).1)
  · exact aux y j _ (fun m => (hst m).2.1)
  · exact aux z k _ (fun m => (hst m).2.2)

/-- Weights with given means. -/
def weights (t : Tet) (u : Vec K 3) : Fin 4 → K :=
  ![1 - (chain t u).1, (chain t u).1 - (chain t u).2.1, (chain t u).2.1 - (chain t u).2.2, (chain t u).2.2]

theorem weights_sum (t : Tet) (u : Vec K 3) : ∑ m, weights t u m = 1 := by
  simp [weights, Fin.sum_univ_four]

theorem means_weights (t : Tet) (u : Vec K 3) : means t (weights t u) = u := by
  funext c
  cases t <;> fin_cases c <;> simp [means, weights, chain, step, Tet.steps, Fin.sum_univ_four]

theorem hull_iff (hi : i < nx) (hj : j < ny) (p : Vec K 3) :
    InHull (corner (dmesh sq x y z nx ny nz) (simplex sq x y z nx ny i j k t)) p ↔
      ∃ u, (0 ≤ (chain t u).2.2 ∧ (chain t u).2.2 ≤ (chain t u).2.1 ∧ (chain t u).2.1 ≤ (chain t u).1 ∧ (chain t u).1 ≤ 1) ∧
        p = place x y z i j k u := by
  constructor
  · rintro ⟨w, h0, h1, h2⟩
    refine ⟨means t w, ?_, funext fun c => (h2 c).trans (corner_mean hi hj h1 c)⟩
    rw [means_chain]
    rw [Fin.sum_univ_four] at h1
    have a0 := h0 0
    have a1 := h0 1
    have a2 := h0 2
    have a3 := h0 3
    refine ⟨a3, ?_, ?_, ?_⟩ <;> dsimp only <;> linarith
  · rintro ⟨u, ⟨h0, h1, h2, h3⟩, rfl⟩
    refine ⟨weights t u, ?_, weights_sum t u, fun c => ?_⟩
    · intro m
      fin_cases m
      · exact sub_nonneg.2 h3
      · exact sub_nonneg.2 h2
      · exact sub_nonneg.2 h1
      · exact h0
    · rw [corner_mean hi hj (weights_sum t u), means_weights]

theorem interior_of (hi : i < nx) (hj : j < ny) {p : Vec K 3}
    (h : InInterior (corner (dmesh sq x y z nx ny nz) (simplex sq x y z nx ny i j k t)) p) :
    ∃ u, (0 < (chain t u).2.2 ∧ (chain t u).2.2 < (chain t u).2.1 ∧ (chain t u).2.1 < (chain t u).1 ∧ (chain t u).1 < 1) ∧
        p = place x y z i j k u := by
  obtain ⟨w, h0, h1, h2⟩ := h
  refine ⟨means t w, ?_, funext fun c => (h2 c).trans (corner_mean hi hj h1 c)⟩
  rw [means_chain]
  rw [Fin.sum_univ_four] at h1
  have a0 := h0 0
  have a1 := h0 1
  have a2 := h0 2
  have a3 := h0 3
  refine ⟨a3, ?_, ?_, ?_⟩ <;> dsimp only <;> linarith

theorem chain_bounds {u : Vec K 3} (h : 0 ≤ (chain t u).2.2 ∧ (chain t u).2.2 ≤ (chain t u).2.1 ∧ (chain t u).2.1 ≤ (chain t u).1 ∧
    (chain t u).1 ≤ 1) (c : Fin 3) : 0 ≤ u c ∧ u c ≤ 1 := by
  obtain ⟨h0, h1, h2, h3⟩ := h
  cases t <;> simp only [chain] at h0 h1 h2 h3 <;> fin_cases c <;> constructor <;> simp only [Fin.isValue, Fin.zero_eta, Fin.mk_one, Fin.reduceFinMk] <;> linarith

theorem chain_strict {u : Vec K 3} (h : 0 < (chain t u).2.2 ∧ (chain t u).2.2 < (chain t u).2.1 ∧ (chain t u).2.1 < (chain t u).1 ∧
    (chain t u).1 < 1) (c : Fin 3) : 0 < u c ∧ u c < 1 := by
  obtain ⟨h0, h1, h2, h3⟩ := h
  cases t <;> simp only [chain] at h0 h1 h2 h3 <;> fin_cases c <;> constructor <;> simp only [Fin.isValue, Fin.zero_eta, Fin.mk_one, Fin.reduceFinMk] <;> linarith

theorem chain_unique {u : Vec K 3} (h : (chain t u).2.2 < (chain t u).2.1 ∧ (chain t u).2.1 < (chain t u).1)
    (h' : (chain t' u).2.2 < (chain t' u).2.1 ∧ (chain t' u).2.1 < (chain t' u).1) : t = t' := by
  obtain ⟨h1, h2⟩ := h
  obtain ⟨h1', h2'⟩ := h'
  cases t <;> cases t' <;> simp only [chain] at h1 h2 h1' h2' <;> first | rfl | (exfalso; linarith)

theorem chain_exists (u : Vec K 3) : ∃ t, (chain t u).2.2 ≤ (chain t u).2.1 ∧ (chain t u).2.1 ≤ (chain t u).1 := by
  rcases le_total (u 0) (u 1) with a | a <;> rcases le_total (u 1) (u 2) with b | b <;> rcases le_total (u 0) (u 2) with c | c
  · exact ⟨.zyx, a, b⟩
  · exact ⟨.zyx, a, b⟩
  · exact ⟨.yzx, c, b⟩
  · exact ⟨.yxz, c, a⟩
  · exact ⟨.zxy, a, c⟩
  · exact ⟨.xzy, b, c⟩
  · exact ⟨.xyz, b, a⟩
  · exact ⟨.xyz, b, a⟩

theorem place_inj (hx : Rising x nx) (hy : Rising y ny) (hz : Rising z nz) (hi : i < nx) (hj : j < ny) (hk : k < nz) {u v : Vec K 3}
    (h : place x y z i j k u = place x y z i j k v) : u = v := by
  have a := hx i hi
  have b := hy j hj
  have c := hz k hk
  have e0 := congrFun h 0
  have e1 := congrFun h 1
  have e2 := congrFun h 2
  simp only [place, Matrix.cons_val_zero, Matrix.cons_val_one, Matrix.cons_val, add_right_inj] at e0 e1 e2
  funext m
  fin_cases m
  · exact mul_left_cancel₀ (sub_pos.2 a).ne' e0
  · exact mul_left_cancel₀ (sub_pos.2 b).ne' e1
  · exact mul_left_cancel₀ (sub_pos.2 c).ne' e2

theorem between {a b u : K} (hab : a < b) (h : 0 < u ∧ u < 1) : a < a + (b - a) * u ∧ a + (b - a) * u < b := by
  have := sub_pos.2 hab
  constructor <;> nlinarith

theorem between_le {a b u : K} (hab : a < b) (h : 0 ≤ u ∧ u ≤ 1) : a ≤ a + (b - a) * u ∧ a + (b - a) * u ≤ b := by
  have := sub_pos.2 hab
  constructor <;> nlinarith

/-- The box between the first and the last grid points. -/
def InGrid (x y z : Nat → K) (nx ny nz : Nat) (p : Vec K 3) : Prop :=
  (x 0 ≤ p 0 ∧ p 0 ≤ x nx) ∧ (y 0 ≤ p 1 ∧ p 1 ≤ y ny) ∧ (z 0 ≤ p 2 ∧ p 2 ≤ z nz)

theorem det_ne (hx : Rising x nx) (hy : Rising y ny) (hz : Rising z nz) (hi : i < nx) (hj : j < ny) (hk : k < nz) :
    det (corner (dmesh sq x y z nx ny nz) (simplex sq x y z nx ny i j k t) 0)
      (corner (dmesh sq x y z nx ny nz) (simplex sq x y z nx ny i j k t) 1)
      (corner (dmesh sq x y z nx ny nz) (simplex sq x y z nx ny i j k t) 2)
      (corner (dmesh sq x y z nx ny nz) (simplex sq x y z nx ny i j k t) 3) ≠ 0 := by
  have a := (sub_pos.2 (hx i hi)).ne'
  have b := (sub_pos.2 (hy j hj)).ne'
  have c := (sub_pos.2 (hz k hk)).ne'
  have abc := mul_ne_zero (mul_ne_zero a b) c
  rw [corner_simplex hi hj, corner_simplex hi hj, corner_simplex hi hj, corner_simplex hi hj]
  intro h
  apply abc
  unfold det at h
  rw [dotB] at h
  cases t <;> simp only [cross, step, Tet.steps, Pi.sub_apply, Matrix.cons_val_zero, Matrix.cons_val_one, Matrix.cons_val, Fin.isValue,
    List.getElem?_cons_zero, List.getElem?_cons_succ, Option.getD_some, Fin.val_zero, Fin.val_one, Nat.add_zero,
    show ((2 : Fin 4) : Nat) = 2 from rfl, show ((3 : Fin 4) : Nat) = 3 from rfl] at h
  all_goals first | linear_combination h | linear_combination -h

/-! ### The triangulation -/

section
variable (hsq : ∀ s, 0 < s → 0 < sq s) (hx : Rising x nx) (hy : Rising y ny) (hz : Rising z nz)
include hsq hx hy hz

omit hx hy hz in
/-- The normal of a facet of the tetrahedron `v`. -/
theorem normal_perp (v : Fin 4 → Vec K 3) (m a : Fin 4) (ha : a ≠ m) :
    dot (cutNormal (by decide : 3 ≤ 3) (normals sq (fun m => v (Fin.ofNat 4 m)) m)) (v a - v (Fin.ofNat 4 (others m).1)) = 0 := by
  have P2 := tetNormal_perp2 hsq
  have P3 := tetNormal_perp3 hsq
  have self : ∀ n a : Vec K 3, dot n (a - a) = 0 := by intro n a; simp [dot]
  fin_cases m <;> fin_cases a <;>
    first
    | (exact absurd rfl ha)
    | (exact self _ _)
    | (exact P2 _ _ _ _)
    | (exact P3 _ _ _ _)

omit hx hy hz in
theorem normal_out (v : Fin 4 → Vec K 3) (hd : det (v 0) (v 1) (v 2) (v 3) ≠ 0) (m : Fin 4) :
    dot (cutNormal (by decide : 3 ≤ 3) (normals sq (fun m => v (Fin.ofNat 4 m)) m)) (v m - v (Fin.ofNat 4 (others m).1)) < 0 := by
  have d1 : det (v 1) (v 0) (v 2) (v 3) ≠ 0 := by
    intro h; apply hd; unfold det at h ⊢; rw [dotB] at h ⊢; simp [cross] at h ⊢; linear_combination -h
  have d2 : det (v 2) (v 0) (v 1) (v 3) ≠ 0 := by
    intro h; apply hd; unfold det at h ⊢; rw [dotB] at h ⊢; simp [cross] at h ⊢; linear_combination h
  have d3 : det (v 3) (v 0) (v 1) (v 2) ≠ 0 := by
    intro h; apply hd; unfold det at h ⊢; rw [dotB] at h ⊢; simp [cross] at h ⊢; linear_combination -h
  fin_cases m
  · exact tetNormal_out hsq hd
  · exact tetNormal_out hsq d1
  · exact tetNormal_out hsq d2
  · exact tetNormal_out hsq d3

theorem triangulation : Triangulation (by decide : 3 ≤ 3) (dmesh sq x y z nx ny nz) := by
  refine ⟨by decide, manifold sq x y z nx ny nz, ?_, ?_, same_facet, ?_, ?_, ?_⟩
  · intro c hc F hF
    obtain ⟨i, j, k, t, -, -, -, rfl⟩ := mem_simplices.1 hc
    obtain ⟨l, -, rfl⟩ := List.mem_map.1 hF
    unfold facetNo
    omega
  · intro c hc
    obtain ⟨i, j, k, t, -, -, -, rfl⟩ := mem_simplices.1 hc
    cases t <;> rfl
  · intro c hc m a b ha hb
    obtain ⟨i, j, k, t, hi, hj, hk, rfl⟩ := mem_simplices.1 hc
    rw [normal_simplex (nz := nz)]
    unfold onFacet at ha hb
    rw [if_neg (by decide)] at ha hb
    have ea := normal_perp hsq (corner (dmesh sq x y z nx ny nz) (simplex sq x y z nx ny i j k t)) m a (fun h => ha (congrArg Fin.val h))
    have eb := normal_perp hsq (corner (dmesh sq x y z nx ny nz) (simplex sq x y z nx ny i j k t)) m b (fun h => hb (congrArg Fin.val h))
    rw [dotB] at ea eb ⊢
    simp only [Pi.sub_apply] at ea eb ⊢
    linear_combination eb - ea
  · intro c hc m a b ha hb
    obtain ⟨i, j, k, t, hi, hj, hk, rfl⟩ := mem_simplices.1 hc
    rw [normal_simplex (nz := nz)]
    unfold onFacet at ha hb
    rw [if_neg (by decide)] at ha hb
    have hb' : b = m := by
      by_contra h
      exact hb (fun h' => h (Fin.ext h'))
    subst hb'
    have ea := normal_perp hsq (corner (dmesh sq x y z nx ny nz) (simplex sq x y z nx ny i j k t)) b a (fun h => ha (congrArg Fin.val h))
    have eb := normal_out hsq _ (det_ne (sq := sq) (t := t) hx hy hz hi hj hk) b
    rw [dotB] at ea eb ⊢
    simp only [Pi.sub_apply] at ea eb ⊢
    linarith
  · intro c hc c' hc' hne p hp
    obtain ⟨i, j, k, t, hi, hj, hk, rfl⟩ := mem_simplices.1 hc
    obtain ⟨i', j', k', t', hi', hj', hk', rfl⟩ := mem_simplices.1 hc'
    obtain ⟨u, hu, rfl⟩ := interior_of hi hj hp.1
    obtain ⟨u', hu', e⟩ := interior_of hi' hj' hp.2
    have b0 := between (hx i hi) (chain_strict hu 0)
    have b1 := between (hy j hj) (chain_strict hu 1)
    have b2 := between (hz k hk) (chain_strict hu 2)
    have b0' := between (hx i' hi') (chain_strict hu' 0)
    have b1' := between (hy j' hj') (chain_strict hu' 1)
    have b2' := between (hz k' hk') (chain_strict hu' 2)
    have e0 : x i + (x (i + 1) - x i) * u 0 = x i' + (x (i' + 1) - x i') * u' 0 := congrFun e 0
    have e1 : y j + (y (j + 1) - y j) * u 1 = y j' + (y (j' + 1) - y j') * u' 1 := congrFun e 1
    have e2 : z k + (z (k + 1) - z k) * u 2 = z k' + (z (k' + 1) - z k') * u' 2 := congrFun e 2
    rw [← e0] at b0'
    rw [← e1] at b1'
    rw [← e2] at b2'
    obtain rfl := hx.box_eq hi hi' b0.1 b0.2 b0'.1 b0'.2
    obtain rfl := hy.box_eq hj hj' b1.1 b1.2 b1'.1 b1'.2
    obtain rfl := hz.box_eq hk hk' b2.1 b2.2 b2'.1 b2'.2
    obtain rfl := place_inj hx hy hz hi hj hk e
    obtain rfl := chain_unique ⟨hu.2.1, hu.2.2.1⟩ ⟨hu'.2.1, hu'.2.2.1⟩
    exact hne rfl

omit hsq

theorem points_iff (hnx : 0 < nx) (hny : 0 < ny) (hnz : 0 < nz) (p : Vec K 3) :
    (∃ c ∈ (dmesh sq x y z nx ny nz).cells, InHull (corner (dmesh sq x y z nx ny nz) c) p) ↔ InGrid x y z nx ny nz p := by
  constructor
  · rintro ⟨c, hc, hp⟩
    obtain ⟨i, j, k, t, hi, hj, hk, rfl⟩ := mem_simplices.1 hc
    obtain ⟨u, hu, rfl⟩ := (hull_iff hi hj p).1 hp
    have b0 := between_le (hx i hi) (chain_bounds hu 0)
    have b1 := between_le (hy j hj) (chain_bounds hu 1)
    have b2 := between_le (hz k hk) (chain_bounds hu 2)
    refine ⟨⟨?_, ?_⟩, ⟨?_, ?_⟩, ⟨?_, ?_⟩⟩
    · exact (hx.le (Nat.zero_le i) hi.le).trans b0.1
    · exact b0.2.trans (hx.le hi (le_refl _))
    · exact (hy.le (Nat.zero_le j) hj.le).trans b1.1
    · exact b1.2.trans (hy.le hj (le_refl _))
    · exact (hz.le (Nat.zero_le k) hk.le).trans b2.1
    · exact b2.2.trans (hz.le hk (le_refl _))
  · rintro ⟨⟨a0, a1⟩, ⟨b0, b1⟩, c0, c1⟩
    obtain ⟨i, hi, i0, i1⟩ := Rising.find hnx a0 a1
    obtain ⟨j, hj, j0, j1⟩ := Rising.find hny b0 b1
    obtain ⟨k, hk, k0, k1⟩ := Rising.find hnz c0 c1
    have inv : ∀ {a b p : K}, a < b → a ≤ p → p ≤ b → (0 ≤ (p - a) / (b - a) ∧ (p - a) / (b - a) ≤ 1) ∧ p = a + (b - a) * ((p - a) / (b - a)) := by
      intro a b p hab h0 h1
      have hpos := sub_pos.2 hab
      refine ⟨⟨div_nonneg (sub_nonneg.2 h0) hpos.le, (div_le_one hpos).2 (by linarith)⟩, ?_⟩
      field_simp
      ring
    obtain ⟨⟨u0, u1⟩, ue⟩ := inv (hx i hi) i0 i1
    obtain ⟨⟨v0, v1⟩, ve⟩ := inv (hy j hj) j0 j1
    obtain ⟨⟨w0, w1⟩, we⟩ := inv (hz k hk) k0 k1
    set u : Vec K 3 := ![(p 0 - x i) / (x (i + 1) - x i), (p 1 - y j) / (y (j + 1) - y j), (p 2 - z k) / (z (k + 1) - z k)] with hu
    obtain ⟨t, h1, h2⟩ := chain_exists u
    refine ⟨simplex sq x y z nx ny i j k t, mem_simplices.2 ⟨i, j, k, t, hi, hj, hk, rfl⟩, (hull_iff hi hj p).2 ⟨u, ⟨?_, h1, h2, ?_⟩, ?_⟩⟩
    · cases t <;> assumption
    · cases t <;> assumption
    · funext c
      fin_cases c
      · exact ue
      · exact ve
      · exact we

end

/-! ### The boundary -/

/-- A facet that belongs to one tetrahedron only does not belong to another. -/
theorem only_eq {l : Nat × Nat × Nat × Nat} (hi : i < nx) (hj : j < ny)
    (h : ∀ c' ∈ (dmesh sq x y z nx ny nz).cells, facetNo nx ny l ∈ c'.facets → c'.index = tetNo nx ny i j k t)
    {i' j' k' : Nat} {t' : Tet} (hi' : i' < nx) (hj' : j' < ny) (hk' : k' < nz) (hl' : l ∈ labels i' j' k' t') :
    i' = i ∧ j' = j ∧ k' = k ∧ t' = t :=
  tetNo_inj hi' hj' hi hj (h _ (mem_simplices.2 ⟨i', j', k', t', hi', hj', hk', rfl⟩) (List.mem_map.2 ⟨l, hl', rfl⟩))

/-- The direction in which the tetrahedron starts, and the one in which it ends. -/
def Tet.first : Tet → Fin 3
  | .xyz => 0
  | .xzy => 0
  | .zxy => 2
  | .yxz => 1
  | .zyx => 2
  | .yzx => 1

def Tet.last : Tet → Fin 3
  | .xyz => 2
  | .xzy => 1
  | .zxy => 1
  | .yxz => 2
  | .zyx => 0
  | .yzx => 0

/-- The facets of the surface: the last facet of a tetrahedron at a low side, or the first at a high side. -/
theorem surface {m : Nat} {F : Int} (hi : i < nx) (hj : j < ny) (hk : k < nz)
    (hF : (simplex sq x y z nx ny i j k t).facets[m]? = some F)
    (h : ∀ c' ∈ (dmesh sq x y z nx ny nz).cells, F ∈ c'.facets → c'.index = (simplex sq x y z nx ny i j k t).index) :
    (m = 3 ∧ (![i, j, k] : Fin 3 → Nat) t.last = 0) ∨
      (m = 0 ∧ (![i, j, k] : Fin 3 → Nat) t.first + 1 = (![nx, ny, nz] : Fin 3 → Nat) t.first) := by
  simp only [simplex, List.getElem?_map, Option.map_eq_some_iff] at hF
  obtain ⟨l, hl, rfl⟩ := hF
  have hm : m < 4 := by
    have := (List.getElem?_eq_some_iff.1 hl).1
    have e : (labels i j k t).length = 4 := by cases t <;> rfl
    omega
  have key := fun {i' j' k' : Nat} {t' : Tet} => only_eq (i' := i') (j' := j') (k' := k') (t' := t') hi hj h
  have dn : ∀ {a : Nat}, a ≠ 0 → a - 1 + 1 = a := by intro a ha; omega
  interval_cases m
  · refine .inr ⟨rfl, ?_⟩
    by_contra hc
    cases t <;> cases hl <;> simp only [Tet.first, Matrix.cons_val_zero, Matrix.cons_val_one, Matrix.cons_val] at hc
    · have := key (i' := i + 1) (j' := j) (k' := k) (t' := .yzx) (by omega) hj hk (by simp [labels]); omega
    · have := key (i' := i + 1) (j' := j) (k' := k) (t' := .zyx) (by omega) hj hk (by simp [labels]); omega
    · have := key (i' := i) (j' := j) (k' := k + 1) (t' := .xyz) hi hj (by omega) (by simp [labels]); omega
    · have := key (i' := i) (j' := j + 1) (k' := k) (t' := .xzy) hi (by omega) hk (by simp [labels]); omega
    · have := key (i' := i) (j' := j) (k' := k + 1) (t' := .yxz) hi hj (by omega) (by simp [labels]); omega
    · have := key (i' := i) (j' := j + 1) (k' := k) (t' := .zxy) hi (by omega) hk (by simp [labels]); omega
  · exfalso
    cases t <;> cases hl
    · exact absurd (key (t' := .yxz) hi hj hk (by simp [labels])).2.2.2 (by decide)
    · exact absurd (key (t' := .zxy) hi hj hk (by simp [labels])).2.2.2 (by decide)
    · exact absurd (key (t' := .xzy) hi hj hk (by simp [labels])).2.2.2 (by decide)
    · exact absurd (key (t' := .xyz) hi hj hk (by simp [labels])).2.2.2 (by decide)
    · exact absurd (key (t' := .yzx) hi hj hk (by simp [labels])).2.2.2 (by decide)
    · exact absurd (key (t' := .zyx) hi hj hk (by simp [labels])).2.2.2 (by decide)
  · exfalso
    cases t <;> cases hl
    · exact absurd (key (t' := .xzy) hi hj hk (by simp [labels])).2.2.2 (by decide)
    · exact absurd (key (t' := .xyz) hi hj hk (by simp [labels])).2.2.2 (by decide)
    · exact absurd (key (t' := .zyx) hi hj hk (by simp [labels])).2.2.2 (by decide)
    · exact absurd (key (t' := .yzx) hi hj hk (by simp [labels])).2.2.2 (by decide)
    · exact absurd (key (t' := .zxy) hi hj hk (by simp [labels])).2.2.2 (by decide)
    · exact absurd (key (t' := .yxz) hi hj hk (by simp [labels])).2.2.2 (by decide)
  · refine .inl ⟨rfl, ?_⟩
    by_contra hc
    cases t <;> cases hl <;> simp only [Tet.last, Matrix.cons_val_zero, Matrix.cons_val_one, Matrix.cons_val] at hc
    · have := key (i' := i) (j' := j) (k' := k - 1) (t' := .zxy) hi hj (by omega) (by simp [labels, dn hc]); omega
    · have := key (i' := i) (j' := j - 1) (k' := k) (t' := .yxz) hi (by omega) hk (by simp [labels, dn hc]); omega
    · have := key (i' := i) (j' := j - 1) (k' := k) (t' := .yzx) hi (by omega) hk (by simp [labels, dn hc]); omega
    · have := key (i' := i) (j' := j) (k' := k - 1) (t' := .zyx) hi hj (by omega) (by simp [labels, dn hc]); omega
    · have := key (i' := i - 1) (j' := j) (k' := k) (t' := .xzy) (by omega) hj hk (by simp [labels, dn hc]); omega
    · have := key (i' := i - 1) (j' := j) (k' := k) (t' := .xyz) (by omega) hj hk (by simp [labels, dn hc]); omega

section
variable (hsq : ∀ s, 0 < s → 0 < sq s) (hx : Rising x nx) (hy : Rising y ny) (hz : Rising z nz)
include hsq hx hy hz

theorem convex (hnx : 0 < nx) (hny : 0 < ny) (hnz : 0 < nz) [DecidablePred (InGrid x y z nx ny nz)] :
    ConvexDomain (by decide : 3 ≤ 3) (dmesh sq x y z nx ny nz) (fun p => decide (InGrid x y z nx ny nz p)) := by
  have hT := triangulation hsq hx hy hz
  refine ⟨?_, ?_⟩
  · intro c hc p hp
    exact decide_eq_true ((points_iff hx hy hz hnx hny hnz p).1 ⟨c, hc, hp⟩)
  · intro c hc m F hF honly a ha q hq
    have hq := of_decide_eq_true hq
    have hperp := hT.perp c hc
    have hout := hT.outward c hc
    obtain ⟨i, j, k, t, hi, hj, hk, rfl⟩ := mem_simplices.1 hc
    have gx := sub_pos.2 (hx i hi)
    have gy := sub_pos.2 (hy j hj)
    have gz := sub_pos.2 (hz k hk)
    obtain ⟨⟨q0, q0'⟩, ⟨q1, q1'⟩, ⟨q2, q2'⟩⟩ := hq
    unfold onFacet at ha hperp hout
    simp only [if_neg (by decide : ¬ 3 = 1)] at ha hperp hout
    have neg : ∀ {n h d : K}, 0 < h → n * h < 0 → 0 ≤ d → n * d ≤ 0 := by
      intro n h d hh hn hd
      have : n < 0 := by
        by_contra hc
        have := mul_nonneg (not_lt.1 hc) hh.le
        linarith
      exact mul_nonpos_of_nonpos_of_nonneg this.le hd
    rcases surface hi hj hk hF honly with ⟨rfl, hs⟩ | ⟨rfl, hs⟩
    · have p1 := hperp 3 0 1 (by decide) (by decide)
      have p2 := hperp 3 1 2 (by decide) (by decide)
      have o := hout 3 2 3 (by decide) (by decide)
      change dot (cutNormal _ ((simplex sq x y z nx ny i j k t).normal 3)) _ = 0 at p1 p2
      change dot (cutNormal _ ((simplex sq x y z nx ny i j k t).normal 3)) _ < 0 at o
      generalize cutNormal (by decide : 3 ≤ 3) ((simplex sq x y z nx ny i j k t).normal 3) = n at *
      simp only [corner_simplex hi hj] at p1 p2 o ⊢
      rw [dotB] at p1 p2 o ⊢
      clear hperp hout honly hT hc hF
      cases t <;> simp [step, Tet.steps, gx.ne', gy.ne', gz.ne'] at p1 p2 o <;>
        simp only [Tet.last, Matrix.cons_val_zero, Matrix.cons_val_one, Matrix.cons_val] at hs <;> subst hs <;>
        fin_cases a <;> first | (exact absurd rfl ha) | skip
      all_goals
        simp [step, Tet.steps, p1, p2]
        first
        | exact neg gx o (sub_nonneg.2 q0)
        | exact neg gy o (sub_nonneg.2 q1)
        | exact neg gz o (sub_nonneg.2 q2)
    · have p1 := hperp 0 1 2 (by decide) (by decide)
      have p2 := hperp 0 2 3 (by decide) (by decide)
      have o := hout 0 1 0 (by decide) (by decide)
      change dot (cutNormal _ ((simplex sq x y z nx ny i j k t).normal 0)) _ = 0 at p1 p2
      change dot (cutNormal _ ((simplex sq x y z nx ny i j k t).normal 0)) _ < 0 at o
      generalize cutNormal (by decide : 3 ≤ 3) ((simplex sq x y z nx ny i j k t).normal 0) = n at *
      simp only [corner_simplex hi hj] at p1 p2 o ⊢
      rw [dotB] at p1 p2 o ⊢
      clear hperp hout honly hT hc hF
      cases t <;> simp [step, Tet.steps, gx.ne', gy.ne', gz.ne'] at p1 p2 o <;>
        simp only [Tet.first, Matrix.cons_val_zero, Matrix.cons_val_one, Matrix.cons_val] at hs <;> subst hs <;>
        fin_cases a <;> first | (exact absurd rfl ha) | skip
      all_goals
        simp [step, Tet.steps, p1, p2]
        have sgn : ∀ {n a b d : K}, 0 < b - a → n * (a - b) < 0 → d ≤ b → n * (d - b) ≤ 0 := by
          intro n a b d hh hn hd
          have := neg (n := -n) hh (by linarith) (sub_nonneg.2 hd)
          linarith
        first
        | exact sgn gx o q0'
        | exact sgn gy o q1'
        | exact sgn gz o q2'

end

end Box
end Dt
